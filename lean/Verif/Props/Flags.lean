import Verif.Spec.Flags
/-
Properties of flag words: C61.
-/
namespace Props
open Sio Spec Util

theorem one_shl_bit (n i : Nat) (hn : n < 32) : ((1 : W32) <<< n).getLsbD i = decide (i = n) := by
  by_cases h : i = n
  · subst h; simp [hn]
  · by_cases hlt : i < n
    · simp [hlt]; omega
    · have : i - n ≠ 0 := by omega
      simp [BitVec.getLsbD_shiftLeft, h, this]

theorem and_one_shl (flag : W32) (n : Nat) (hn : n < 32) : ((flag &&& ((1 : W32) <<< n)) != 0) = flag.getLsbD n := by
  have key : ∀ i, (flag &&& ((1 : W32) <<< n)).getLsbD i = (flag.getLsbD i && decide (i = n)) := by
    intro i; rw [BitVec.getLsbD_and, one_shl_bit _ _ hn]
  cases h : flag.getLsbD n with
  | true =>
    rw [bne_iff_ne]
    intro h0
    have := key n
    rw [h0, h] at this
    simp at this
  | false =>
    have : (flag &&& ((1 : W32) <<< n)) = 0 := by
      apply BitVec.eq_of_getLsbD_eq
      intro i hi
      rw [key]
      by_cases e : i = n
      · subst e; simp [h]
      · simp [e]
    rw [this]; rfl

theorem or_bit (flag : W32) (n i : Nat) (hn : n < 32) : (flag ||| ((1 : W32) <<< n)).getLsbD i = (decide (i = n) || flag.getLsbD i) := by
  rw [BitVec.getLsbD_or, one_shl_bit _ _ hn, Bool.or_comm]

theorem andNot_bit (flag : W32) (n i : Nat) (hn : n < 32) : (flag &&& ~~~((1 : W32) <<< n)).getLsbD i = (!decide (i = n) && flag.getLsbD i) := by
  rw [BitVec.getLsbD_and, BitVec.getLsbD_not, one_shl_bit _ _ hn, Bool.and_comm]
  by_cases hi : i < 32
  · simp [hi]
  · rw [BitVec.getLsbD_of_ge _ _ (by omega)]; simp

/-- A bit is tested. -/
theorem bitSet_eq (flag : W32) (bit : Int) (h1 : 0 ≤ bit) (h2 : bit ≤ 31) : flagBitSet flag bit = .ok (flag.getLsbD bit.toNat) := by
  unfold flagBitSet oneShl
  rw [if_neg (by omega)]
  simp only [bind, Except.bind, pure, Except.pure]
  rw [and_one_shl _ _ (by omega)]

theorem setBit_eq (flag : W32) (bit : Int) : ∃ f, flagSetBit flag bit = .ok f ∧ ∀ i : Nat, f.getLsbD i = ((decide ((i : Int) = bit) && decide (bit ≤ 31)) || flag.getLsbD i) := by
  unfold flagSetBit
  by_cases h : 0 ≤ bit ∧ bit ≤ 31
  · rw [if_pos h, bitSet_eq _ _ h.1 h.2]
    simp only [bind, Except.bind, pure, Except.pure]
    have hd : ∀ i : Nat, decide ((i : Int) = bit) = decide (i = bit.toNat) := by intro i; congr 1; apply propext; omega
    cases hb : flag.getLsbD bit.toNat with
    | true =>
      refine ⟨flag, rfl, ?_⟩
      intro i
      by_cases e : i = bit.toNat
      · subst e; simp [hb]
      · simp [hd, e]
    | false =>
      have ho : oneShl bit = .ok ((1 : W32) <<< bit.toNat) := by unfold oneShl; rw [if_neg (by omega)]
      simp only [ho, Bool.not_false, if_true]
      refine ⟨_, rfl, ?_⟩
      intro i
      rw [or_bit _ _ _ (by omega), hd]
      simp [h.2]
  · rw [if_neg h]
    refine ⟨flag, rfl, ?_⟩
    intro i
    by_cases e : (i : Int) = bit
    · have : ¬ bit ≤ 31 := by omega
      simp [this]
    · simp [e]

theorem unsetBit_eq (flag : W32) (bit : Int) : ∃ f, flagUnsetBit flag bit = .ok f ∧ ∀ i : Nat, f.getLsbD i = (!decide ((i : Int) = bit) && flag.getLsbD i) := by
  unfold flagUnsetBit
  have hd : ∀ i : Nat, 0 ≤ bit → decide ((i : Int) = bit) = decide (i = bit.toNat) := by intro i hb; congr 1; apply propext; omega
  by_cases h : 0 ≤ bit ∧ bit ≤ 31
  · rw [if_pos h, bitSet_eq _ _ h.1 h.2]
    simp only [bind, Except.bind, pure, Except.pure]
    cases hb : flag.getLsbD bit.toNat with
    | false =>
      refine ⟨flag, rfl, ?_⟩
      intro i
      by_cases e : i = bit.toNat
      · subst e; simp [hb]
      · simp [hd _ h.1, e]
    | true =>
      have ho : oneShl bit = .ok ((1 : W32) <<< bit.toNat) := by unfold oneShl; rw [if_neg (by omega)]
      simp only [ho, if_true]
      refine ⟨_, rfl, ?_⟩
      intro i
      rw [andNot_bit _ _ _ (by omega), hd _ h.1]
  · rw [if_neg h]
    refine ⟨flag, rfl, ?_⟩
    intro i
    by_cases e : (i : Int) = bit
    · rw [BitVec.getLsbD_of_ge _ _ (by omega)]; simp
    · simp [e]

theorem lastOp_other (bit : Int) (op : FlagOp) (ops : List FlagOp) (h : op.bit ≠ bit) : lastOp bit (op :: ops) = lastOp bit ops := by
  simp only [lastOp]
  cases lastOp bit ops with
  | some b => rfl
  | none => cases op with
    | set b => simp only [FlagOp.bit] at h; simp [h]
    | unset b => simp only [FlagOp.bit] at h; simp [h]

/-- **C61**, flag words of collections, as far as it holds. After any calls of `setBit` and `unsetBit` with any bit numbers, none of which throws, `bitSet` with a bit number from 0 to 31 says what the
last call for this bit did, or what the bit was at the beginning if there was none.

Missing: `bitSet` with other numbers, see `C61_fails_for_test`. -/
theorem C61_flags_partial (ops : List FlagOp) (flag : W32) :
    ∃ flag', flagRun flag ops = .ok flag' ∧ ∀ bit : Int, 0 ≤ bit → bit ≤ 31 → ∃ b, flagBitSet flag bit = .ok b ∧ flagBitSet flag' bit = .ok ((lastOp bit ops).getD b) := by
  induction ops generalizing flag with
  | nil => exact ⟨flag, rfl, fun bit h1 h2 => ⟨_, bitSet_eq _ _ h1 h2, bitSet_eq _ _ h1 h2⟩⟩
  | cons op ops ih =>
    have key : ∃ f, (flagRun flag (op :: ops) = flagRun f ops) ∧ ∀ bit : Int, 0 ≤ bit → bit ≤ 31 →
        f.getLsbD bit.toNat = match op with | .set b => (decide (b = bit) || flag.getLsbD bit.toNat) | .unset b => (!decide (b = bit) && flag.getLsbD bit.toNat) := by
      cases op with
      | set b =>
        obtain ⟨f, h1, h2⟩ := setBit_eq flag b
        refine ⟨f, by simp [flagRun, h1], fun bit hb1 hb2 => ?_⟩
        rw [h2]
        have e : ((bit.toNat : Nat) : Int) = bit := by omega
        rw [e]
        by_cases hb : b = bit
        · subst hb; simp [hb2]
        · have : ¬ bit = b := fun h => hb h.symm
          simp [hb, this]
      | unset b =>
        obtain ⟨f, h1, h2⟩ := unsetBit_eq flag b
        refine ⟨f, by simp [flagRun, h1], fun bit hb1 hb2 => ?_⟩
        rw [h2]
        have e : ((bit.toNat : Nat) : Int) = bit := by omega
        rw [e]
        simp [eq_comm]
    obtain ⟨f, h1, h2⟩ := key
    obtain ⟨flag', h3, h4⟩ := ih f
    refine ⟨flag', by rw [h1, h3], fun bit hb1 hb2 => ?_⟩
    obtain ⟨b, h5, h6⟩ := h4 bit hb1 hb2
    refine ⟨_, bitSet_eq _ _ hb1 hb2, ?_⟩
    rw [h6]
    rw [bitSet_eq _ _ hb1 hb2, h2 bit hb1 hb2] at h5
    simp only [Except.ok.injEq] at h5
    subst h5
    simp only [lastOp]
    cases lastOp bit ops with
    | some x => rfl
    | none => cases op with
      | set b => by_cases hb : b = bit <;> simp [hb]
      | unset b => by_cases hb : b = bit <;> simp [hb]

theorem set_bit_eq (flag : W32) (bit : Int) (h1 : 0 ≤ bit) (h2 : bit ≤ 31) : ∃ f, set_bit flag bit = .ok f ∧ ∀ i : Nat, f.getLsbD i = (decide ((i : Int) = bit) || flag.getLsbD i) := by
  unfold set_bit bitsetPos
  rw [if_neg (by omega)]
  refine ⟨_, rfl, fun i => ?_⟩
  rw [or_bit _ _ _ (by omega)]
  congr 2; apply propext; omega

theorem unset_bit_eq (flag : W32) (bit : Int) (h1 : 0 ≤ bit) (h2 : bit ≤ 31) : ∃ f, unset_bit flag bit = .ok f ∧ ∀ i : Nat, f.getLsbD i = (!decide ((i : Int) = bit) && flag.getLsbD i) := by
  unfold unset_bit bitsetPos
  rw [if_neg (by omega)]
  refine ⟨_, rfl, fun i => ?_⟩
  rw [andNot_bit _ _ _ (by omega)]
  congr 3; apply propext; omega

/-- **C61**, `BitSet32`. After any calls of `set_bit` and `unset_bit` with bit numbers from 0 to 31 `test` says what the last call for a bit did, or what the bit was at the
beginning. Other numbers are not ignored: `test`, `set_bit` and `unset_bit` throw. -/
theorem C61_bitset_partial (ops : List FlagOp) (hops : ∀ op ∈ ops, 0 ≤ op.bit ∧ op.bit ≤ 31) (flag : W32) :
    (∃ flag', bitRun flag ops = .ok flag' ∧ ∀ bit : Int, 0 ≤ bit → bit ≤ 31 → ∃ b, bitset32Test flag bit = .ok b ∧ bitset32Test flag' bit = .ok ((lastOp bit ops).getD b)) ∧
    (∀ bit : Int, bit < 0 ∨ 32 ≤ bit → bitset32Test flag bit = .error .outOfRange ∧ set_bit flag bit = .error .outOfRange ∧ unset_bit flag bit = .error .outOfRange) := by
  have htest : ∀ (f : W32) (bit : Int), 0 ≤ bit → bit ≤ 31 → bitset32Test f bit = .ok (f.getLsbD bit.toNat) := by
    intro f bit h1 h2
    unfold bitset32Test bitsetPos
    rw [if_neg (by omega)]
    rfl
  refine ⟨?_, ?_⟩
  · induction ops generalizing flag with
    | nil => exact ⟨flag, rfl, fun bit h1 h2 => ⟨_, htest _ _ h1 h2, htest _ _ h1 h2⟩⟩
    | cons op ops ih =>
      have hop := hops op (by simp)
      have key : ∃ f, (bitRun flag (op :: ops) = bitRun f ops) ∧ ∀ bit : Int, 0 ≤ bit → bit ≤ 31 →
          f.getLsbD bit.toNat = match op with | .set b => (decide (b = bit) || flag.getLsbD bit.toNat) | .unset b => (!decide (b = bit) && flag.getLsbD bit.toNat) := by
        cases op with
        | set b =>
          obtain ⟨f, h1, h2⟩ := set_bit_eq flag b hop.1 hop.2
          refine ⟨f, by simp [bitRun, h1], fun bit hb1 hb2 => ?_⟩
          rw [h2]
          have e : ((bit.toNat : Nat) : Int) = bit := by omega
          rw [e]
          simp [eq_comm]
        | unset b =>
          obtain ⟨f, h1, h2⟩ := unset_bit_eq flag b hop.1 hop.2
          refine ⟨f, by simp [bitRun, h1], fun bit hb1 hb2 => ?_⟩
          rw [h2]
          have e : ((bit.toNat : Nat) : Int) = bit := by omega
          rw [e]
          simp [eq_comm]
      obtain ⟨f, h1, h2⟩ := key
      obtain ⟨flag', h3, h4⟩ := ih (fun op h => hops op (by simp [h])) f
      refine ⟨flag', by rw [h1, h3], fun bit hb1 hb2 => ?_⟩
      obtain ⟨b, h5, h6⟩ := h4 bit hb1 hb2
      refine ⟨_, htest _ _ hb1 hb2, ?_⟩
      rw [h6]
      rw [htest _ _ hb1 hb2, h2 bit hb1 hb2] at h5
      simp only [Except.ok.injEq] at h5
      subst h5
      simp only [lastOp]
      cases lastOp bit ops with
      | some x => rfl
      | none => cases op with
        | set b => by_cases hb : b = bit <;> simp [hb]
        | unset b => by_cases hb : b = bit <;> simp [hb]
  · intro bit h
    unfold bitset32Test set_bit unset_bit bitsetPos
    simp only [if_pos h]
    exact ⟨rfl, rfl, rfl⟩

/-- **C61**: `make_bitset32` has just the bits that are given. -/
theorem C61_make (bits : List Int) (hb : ∀ b ∈ bits, 0 ≤ b ∧ b ≤ 31) :
    ∃ f, make_bitset32 bits = .ok f ∧ ∀ bit : Int, 0 ≤ bit → bit ≤ 31 → bitset32Test f bit = .ok (decide (bit ∈ bits)) := by
  induction bits with
  | nil =>
    refine ⟨0, rfl, ?_⟩
    intro bit h1 h2
    unfold bitset32Test bitsetPos
    rw [if_neg (by omega)]
    simp [bind, Except.bind, pure, Except.pure]
  | cons b bits ih =>
    obtain ⟨f, h1, h2⟩ := ih (fun x hx => hb x (by simp [hx]))
    have hb0 := hb b (by simp)
    unfold make_bitset32 oneShl
    rw [if_neg (by omega)]
    simp only [bind, Except.bind, h1]
    refine ⟨_, rfl, ?_⟩
    intro bit hb1 hb2
    have := h2 bit hb1 hb2
    unfold bitset32Test bitsetPos at this ⊢
    rw [if_neg (by omega)] at this ⊢
    simp only [bind, Except.bind, pure, Except.pure, Except.ok.injEq] at this ⊢
    rw [BitVec.getLsbD_or, one_shl_bit _ _ (by omega), this]
    have : decide (bit.toNat = b.toNat) = decide (bit = b) := by congr 1; apply propext; omega
    rw [this]
    simp [List.mem_cons]

/-- **C61** fails for `bitSet` of other numbers: a shift by 32 or more bits or by a negative number, which is undefined. -/
theorem C61_fails_for_test (flag : W32) (bit : Int) (h : bit < 0 ∨ 32 ≤ bit) : flagBitSet flag bit = .error .ub := by
  unfold flagBitSet oneShl
  rw [if_pos h]
  rfl

/-! ## Cases -/

example : ∃ f, flagRun 5 [.set 31, .set 40, .unset 0, .set 0, .unset 2, .set (-1)] = .ok f ∧ flagBitSet f 0 = .ok true ∧ flagBitSet f 2 = .ok false ∧ flagBitSet f 31 = .ok true ∧
    flagBitSet f 3 = .ok false := ⟨0x80000001, by decide⟩
example : make_bitset32 [31, 30, 16] = .ok 0xC0010000 := by decide
example : bitRun 0xFFFFFFFF [.unset 31, .set 4, .unset 4] = .ok 0x7FFFFFEF := by decide

end Props
