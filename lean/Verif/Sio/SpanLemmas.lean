import Verif.Sio.Span
import Verif.Spec.Views
/-
Lemmas about views of bytes.
-/
namespace Sio
open Spec

/-- A view of `n` bytes of an array from the one with number `a`. -/
def slice (mem : List Byte) (a n : Nat) : Span := ⟨mem, a, (a + n : Nat), false⟩

theorem size_slice (mem : List Byte) (a n : Nat) (h : a + n ≤ mem.length) (hm : mem.length < 2 ^ 63) : (slice mem a n).size.toNat = n := by
  have : ((a + n : Nat) : Int) - (a : Int) = (n : Int) := by omega
  simp only [slice, Span.size, this, Bool.false_eq_true, if_false]
  rw [BitVec.ofInt_natCast, BitVec.toNat_ofNat]
  omega

theorem toInt_small (i : BitVec 64) (h : i.toNat < 2 ^ 63) : i.toInt = i.toNat := by
  rw [BitVec.toInt_eq_toNat_of_lt (by omega)]

theorem nextIter_slice (mem : List Byte) (a : Nat) (i : BitVec 64) (h : a + i.toNat ≤ mem.length) (hm : mem.length < 2 ^ 63) :
    nextIter mem a i = .ok ((a + i.toNat : Nat) : Int) := by
  unfold nextIter
  rw [toInt_small i (by omega), if_pos (by omega)]
  rfl

theorem from_slice (mem : List Byte) (a n : Nat) (h : a + n ≤ mem.length) (hm : mem.length < 2 ^ 63) (i : BitVec 64) :
    (slice mem a n).from i = if i.toNat ≤ n then .ok (slice mem (a + i.toNat) (n - i.toNat)) else .error .outOfRange := by
  unfold Span.from
  simp only [GT.gt, BitVec.lt_def, size_slice mem a n h hm]
  by_cases hi : i.toNat ≤ n
  · rw [if_neg (by omega), if_pos hi]
    show (match nextIter mem a i with | .error e => _ | .ok first => _) = _
    rw [nextIter_slice mem a i (by omega) hm]
    show Except.ok (Span.mk mem _ ((a + n : Nat) : Int) false) = Except.ok (Span.mk mem _ ((a + i.toNat + (n - i.toNat) : Nat) : Int) false)
    rw [show a + i.toNat + (n - i.toNat) = a + n by omega]
  · rw [if_pos (by omega), if_neg hi]

theorem part_slice (mem : List Byte) (a n : Nat) (h : a + n ≤ mem.length) (hm : mem.length < 2 ^ 63) (i c : BitVec 64) (hw : i.toNat + c.toNat < 2 ^ 64) :
    (slice mem a n).part i c = if i.toNat + c.toNat ≤ n then .ok (slice mem (a + i.toNat) c.toNat) else .error .outOfRange := by
  have hs : (i + c).toNat = i.toNat + c.toNat := by rw [BitVec.toNat_add, Nat.mod_eq_of_lt hw]
  unfold Span.part
  simp only [GT.gt, BitVec.lt_def, size_slice mem a n h hm, hs]
  by_cases hi : i.toNat + c.toNat ≤ n
  · rw [if_neg (by omega), if_pos hi]
    show (match nextIter mem a i with | .error e => _ | .ok first => (match nextIter mem a (i + c) with | .error e => _ | .ok last => _)) = _
    rw [nextIter_slice mem a i (by omega) hm, nextIter_slice mem a (i + c) (by omega) hm, hs]
    show Except.ok (Span.mk mem _ _ false) = Except.ok (Span.mk mem _ _ false)
    rw [Nat.add_assoc]
  · rw [if_pos (by omega), if_neg hi]

/-- The bytes of the view. -/
def bytesIn (mem : List Byte) (a n : Nat) : List Byte := (mem.drop a).take n

theorem length_bytesIn (mem : List Byte) (a n : Nat) (h : a + n ≤ mem.length) : (bytesIn mem a n).length = n := by
  simp [bytesIn]; omega

theorem calls_slice (mem : List Byte) (hm : mem.length < 2 ^ 63) (cs : List SpanCall) : ∀ a n : Nat, a + n ≤ mem.length → (∀ c ∈ cs, NoWrap c) →
    (∃ e, (slice mem a n).calls cs = .error e ∧ partsOf (bytesIn mem a n) cs = .error e) ∨
      ∃ a' n', a' + n' ≤ mem.length ∧ (slice mem a n).calls cs = .ok (slice mem a' n') ∧ partsOf (bytesIn mem a n) cs = .ok (bytesIn mem a' n') := by
  induction cs with
  | nil => intro a n h _; exact .inr ⟨a, n, h, rfl, rfl⟩
  | cons c cs ih =>
    intro a n h hw
    have hl := length_bytesIn mem a n h
    cases c with
    | «from» i =>
      simp only [Span.calls, partsOf, partOf, from_slice mem a n h hm i, hl]
      by_cases hi : i.toNat ≤ n
      · simp only [if_pos hi]
        have := ih (a + i.toNat) (n - i.toNat) (by omega) (fun c hc => hw c (List.mem_cons_of_mem _ hc))
        have he : (bytesIn mem a n).drop i.toNat = bytesIn mem (a + i.toNat) (n - i.toNat) := by
          simp [bytesIn, List.drop_take, List.drop_drop]
        rw [he]; exact this
      · simp only [if_neg hi]; exact .inl ⟨_, rfl, rfl⟩
    | part i k =>
      have hk : i.toNat + k.toNat < 2 ^ 64 := hw (.part i k) (List.mem_cons_self ..)
      simp only [Span.calls, partsOf, partOf, part_slice mem a n h hm i k hk, hl]
      by_cases hi : i.toNat + k.toNat ≤ n
      · simp only [if_pos hi]
        have := ih (a + i.toNat) k.toNat (by omega) (fun c hc => hw c (List.mem_cons_of_mem _ hc))
        have he : ((bytesIn mem a n).drop i.toNat).take k.toNat = bytesIn mem (a + i.toNat) k.toNat := by
          simp only [bytesIn, List.drop_take, List.drop_drop, List.take_take]
          rw [Nat.min_eq_left (by omega)]
        rw [he]; exact this
      · simp only [if_neg hi]; exact .inl ⟨_, rfl, rfl⟩

theorem deref_slice (mem : List Byte) (a n k : Nat) (h : a + n ≤ mem.length) (hk : k < (bytesIn mem a n).length) :
    (slice mem a n).deref ((a + k : Nat) : Int) = .ok (bytesIn mem a n)[k] := by
  have hl := length_bytesIn mem a n h
  unfold Span.deref
  rw [if_pos (by omega)]
  show (match mem[(((a + k : Nat) : Int)).toNat]? with | some b => _ | Option.none => _) = _
  rw [Int.toNat_natCast, List.getElem?_eq_getElem (by omega)]
  simp [bytesIn]

theorem viewOf_slice (mem : List Byte) (hm : mem.length < 2 ^ 63) (a n : Nat) (h : a + n ≤ mem.length) : ViewOf (slice mem a n) (bytesIn mem a n) := by
  have hl := length_bytesIn mem a n h
  have hs := size_slice mem a n h hm
  have hget : ∀ i : BitVec 64, ∀ hi : i.toNat < (bytesIn mem a n).length, (slice mem a n).get i = .ok (bytesIn mem a n)[i.toNat] := by
    intro i hi
    show (slice mem a n).deref ((a : Int) + i.toNat) = _
    rw [show (a : Int) + i.toNat = ((a + i.toNat : Nat) : Int) by omega]
    exact deref_slice mem a n i.toNat h hi
  refine ⟨rfl, by rw [hs, hl], ?_, ?_, ?_, ?_, ?_⟩
  · simp only [Span.empty, beq_iff_eq, ← BitVec.toNat_inj, hs]
    rw [← List.length_eq_zero_iff, hl]; simp
  · intro i hi
    refine ⟨?_, hget i hi⟩
    unfold Span.at
    rw [if_neg (by rw [BitVec.le_def, hs]; omega)]
    exact hget i hi
  · intro i hi
    unfold Span.at
    rw [if_pos (by rw [BitVec.le_def, hs]; omega)]
  · intro b hb
    obtain ⟨t, ht⟩ := List.head?_eq_some_iff.1 hb
    have h0 : 0 < (bytesIn mem a n).length := by rw [ht]; simp
    have := deref_slice mem a n 0 h h0
    simp only [ht, List.getElem_cons_zero] at this
    exact this
  · intro b hb
    have h0 : 0 < (bytesIn mem a n).length := by
      cases hq : bytesIn mem a n with
      | nil => rw [hq] at hb; cases hb
      | cons _ _ => simp
    have := deref_slice mem a n ((bytesIn mem a n).length - 1) h (by omega)
    rw [List.getLast?_eq_getElem?, List.getElem?_eq_getElem (by omega)] at hb
    rw [Option.some.inj hb] at this
    show (slice mem a n).deref (((a + n : Nat) : Int) - 1) = _
    rw [← this, hl]
    congr 1; omega

theorem whole_eq (mem : List Byte) : Span.whole mem = slice mem 0 mem.length := by simp [Span.whole, slice]

theorem bytesIn_whole (mem : List Byte) : bytesIn mem 0 mem.length = mem := by simp [bytesIn]

theorem numbersOf_append (xs ys : List DumpItem) : numbersOf (xs ++ ys) = numbersOf xs ++ numbersOf ys := by
  induction xs with
  | nil => rfl
  | cons x xs ih => cases x <;> simp [numbersOf, ih]

theorem dumpLoop_numbers (s : Span) (l : List Byte) (h : ViewOf s l) (hlen : l.length < 2 ^ 63) (split : BitVec 32) (hsplit : split ≠ 0) (maxBytes : BitVec 64) :
    ∀ n i : Nat, i + n = l.length → i ≤ maxBytes.toNat + 2 → (0 < n → i ≤ maxBytes.toNat + 1) →
      ∃ out, s.dumpLoop split maxBytes n (BitVec.ofNat 64 i) = .ok out ∧
        numbersOf out = ((l.drop i).take (maxBytes.toNat + 2 - i)).map fun b => b.toBitVec.toInt := by
  intro n
  induction n with
  | zero =>
    intro i hi _ _
    refine ⟨[], rfl, ?_⟩
    rw [List.drop_eq_nil_of_le (by omega)]; simp [numbersOf]
  | succ n ih =>
    intro i hi _ hmax
    have hmax := hmax (by omega)
    have hb : (BitVec.ofNat 64 i).toNat = i := by rw [BitVec.toNat_ofNat]; omega
    have hat := (h.inside (BitVec.ofNat 64 i) (by omega)).1
    simp only [hb] at hat
    have hnext : BitVec.ofNat 64 i + 1 = BitVec.ofNat 64 (i + 1) := by
      apply BitVec.eq_of_toNat_eq; simp [BitVec.toNat_add, BitVec.toNat_ofNat]
    have hdrop : l.drop i = l[i]'(by omega) :: l.drop (i + 1) := List.drop_eq_getElem_cons (by omega)
    have hsp : ¬ (BitVec.ofNat 64 i ≠ 0 ∧ split = 0) := fun hc => hsplit hc.2
    simp only [Span.dumpLoop, hat, if_neg hsp, GT.gt, BitVec.lt_def, hb, hnext]
    have hfirst : ∀ c : Prop, [Decidable c] → numbersOf (DumpItem.num (l[i]'(by omega)).toBitVec.toInt :: (if c then [.newline] else [])) = [(l[i]'(by omega)).toBitVec.toInt] := by
      intro c _
      by_cases hc : c <;> simp [hc, numbersOf]
    by_cases hm : maxBytes.toNat < i
    · rw [if_pos hm]
      refine ⟨_, rfl, ?_⟩
      rw [hfirst, hdrop, show maxBytes.toNat + 2 - i = 0 + 1 by omega, List.take_succ_cons]
      rfl
    · rw [if_neg hm]
      obtain ⟨out, ho, hn⟩ := ih (i + 1) (by omega) (by omega) (by omega)
      rw [ho]
      refine ⟨_, rfl, ?_⟩
      rw [numbersOf_append, hfirst, hn, hdrop, show maxBytes.toNat + 2 - i = (maxBytes.toNat + 2 - (i + 1)) + 1 by omega, List.take_succ_cons]
      rfl

end Sio
