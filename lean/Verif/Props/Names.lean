import Verif.Sio.EventLemmas
/-
C07 (names), C08 (versions), C10 (relocation on read).
-/
namespace Props
open Sio Spec

theorem isAlpha_iff (c : Byte) : (isAlpha c || c == 95) = true ↔ identStart c := by
  simp only [isAlpha, identStart, Bool.or_eq_true, Bool.and_eq_true, decide_eq_true_eq, beq_iff_eq, UInt8.le_iff_toNat_le,
    List.mem_range', ← UInt8.toNat_inj, Nat.one_mul]
  have := c.toNat_lt
  simp only [UInt8.reduceToNat]
  constructor
  · rintro ((h | h) | h)
    · exact .inl ⟨c.toNat - 65, by omega, by omega⟩
    · exact .inr (.inl ⟨c.toNat - 97, by omega, by omega⟩)
    · exact .inr (.inr h)
  · rintro (⟨i, h⟩ | ⟨i, h⟩ | h)
    · exact .inl (.inl (by omega))
    · exact .inl (.inr (by omega))
    · exact .inr h

theorem isAlnum_iff (c : Byte) : (isAlnum c || c == 95) = true ↔ identChar c := by
  have h := isAlpha_iff c
  simp only [identChar, ← h]
  simp only [isAlnum, Bool.or_eq_true, Bool.and_eq_true, decide_eq_true_eq, beq_iff_eq, UInt8.le_iff_toNat_le,
    List.mem_range', Nat.one_mul]
  simp only [UInt8.reduceToNat]
  constructor
  · rintro ((h | h) | h)
    · exact .inl (.inl h)
    · exact .inr ⟨c.toNat - 48, by omega, by omega⟩
    · exact .inl (.inr h)
  · rintro ((h | h) | ⟨i, h⟩)
    · exact .inl (.inl h)
    · exact .inr h
    · exact .inl (.inr (by omega))

theorem identStart_lt (c : Byte) (h : identStart c) : c < 128 ∧ c ≠ 0 := by
  simp only [identStart, List.mem_range', Nat.one_mul] at h
  rw [UInt8.lt_iff_toNat_lt, ne_eq, ← UInt8.toNat_inj]
  simp only [UInt8.reduceToNat]
  rcases h with ⟨i, h⟩ | ⟨i, h⟩ | h <;> omega

theorem identChar_lt (c : Byte) (h : identChar c) : c < 128 ∧ c ≠ 0 := by
  rcases h with h | h
  · exact identStart_lt c h
  · simp only [List.mem_range', Nat.one_mul] at h
    rw [UInt8.lt_iff_toNat_lt, ne_eq, ← UInt8.toNat_inj]
    simp only [UInt8.reduceToNat]
    omega

theorem validateTail_iff (cs : List Byte) (h0 : (0 : Byte) ∉ cs) : validateTail cs = true ↔ ∀ x ∈ cs, identChar x := by
  induction cs with
  | nil => simp [validateTail]
  | cons c cs ih =>
    simp only [List.mem_cons, not_or] at h0
    have hc := isAlnum_iff c
    have hlt := identChar_lt c
    simp only [validateTail, List.mem_cons, forall_eq_or_imp, ← ih h0.2]
    rw [if_neg (fun h => h0.1 h.symm)]
    split
    · rename_i h
      simp only [Bool.false_eq_true, false_iff, not_and]
      intro hi
      have := (hlt hi).1
      rw [UInt8.lt_iff_toNat_lt] at this
      rw [ge_iff_le, UInt8.le_iff_toNat_le] at h
      omega
    · split
      · rename_i h
        simp only [Bool.false_eq_true, false_iff, not_and]
        intro hi
        have := hc.2 hi
        simp only [bne_iff_ne, ne_eq, Bool.and_eq_true, Bool.not_eq_true', Bool.or_eq_true, beq_iff_eq] at h this
        rcases this with h' | h'
        · rw [h'] at h; simp at h
        · exact absurd h' h.2
      · rename_i h
        have : identChar c := by
          apply hc.1
          by_cases h1 : isAlnum c = true
          · simp [h1]
          · by_cases h2 : c = 95
            · simp [h2]
            · simp [h1, h2] at h
        simp [this]

/-- **C07**, for names without NUL bytes: `sio::validate` accepts exactly the C identifiers, and
`valid_record_name` exactly those of at most 64 bytes. What is missing: names with an embedded NUL, where the
property fails (`C07_fails_for_embedded_nul`). -/
theorem C07_validate_partial (s : List Byte) (h0 : (0 : Byte) ∉ s) :
    (validate s = true ↔ isIdentifier s) ∧ (validRecordName s = true ↔ isIdentifier s ∧ s.length ≤ 64) := by
  have h1 : validate s = true ↔ isIdentifier s := by
    cases s with
    | nil => simp [validate, isIdentifier]
    | cons c cs =>
      simp only [List.mem_cons, not_or] at h0
      have hc := isAlpha_iff c
      have ht := validateTail_iff cs h0.2
      have hlt := identStart_lt c
      have hid : isIdentifier (c :: cs) ↔ identStart c ∧ ∀ x ∈ cs, identChar x := by
        constructor
        · rintro ⟨a, b, h, h1, h2⟩; cases h; exact ⟨h1, h2⟩
        · rintro ⟨h1, h2⟩; exact ⟨c, cs, rfl, h1, h2⟩
      rw [hid]
      simp only [validate, ← ht]
      split
      · rename_i h
        simp only [Bool.false_eq_true, false_iff, not_and]
        intro hi
        have := (hlt hi).1
        rw [UInt8.lt_iff_toNat_lt] at this
        rw [ge_iff_le, UInt8.le_iff_toNat_le] at h
        omega
      · split
        · rename_i h
          simp only [Bool.false_eq_true, false_iff, not_and]
          intro hi
          have := hc.2 hi
          simp only [bne_iff_ne, ne_eq, Bool.and_eq_true, Bool.not_eq_true', Bool.or_eq_true, beq_iff_eq] at h this
          rcases this with h' | h'
          · rw [h'] at h; simp at h
          · exact absurd h' h.2
        · rename_i h
          have : identStart c := by
            apply hc.1
            by_cases h1 : isAlpha c = true
            · simp [h1]
            · by_cases h2 : c = 95
              · simp [h2]
              · simp [h1, h2] at h
          simp [this]
  refine ⟨h1, ?_⟩
  rw [← h1]
  unfold validRecordName
  by_cases hv : validate s = true
  · by_cases hl : s.length > 64
    · simp [hv, hl]
    · simp [hv, hl]; omega
  · simp [hv]

/-- **C07** fails for names with an embedded NUL: everything after it is accepted unchecked. -/
theorem C07_fails_for_embedded_nul :
    ∀ junk : List Byte, validate (97 :: 0 :: junk) = true ∧ ¬ isIdentifier (97 :: 0 :: junk) := by
  intro junk
  refine ⟨rfl, ?_⟩
  rintro ⟨c, cs, h, _, h2⟩
  cases h
  exact (identChar_lt 0 (h2 0 (by simp))).2 rfl

example : isIdentifier (str "LCEventHeader") ∧ (0 : Byte) ∉ (str "LCEventHeader") :=
  ⟨(C07_validate_partial _ (by decide)).1.1 (by decide), by decide⟩

/-- **C08**. Encoding and decoding a version is the identity for all 16-bit major and minor numbers. -/
theorem C08_version_round_trip (major minor : BitVec 16) :
    majorVersion (encodeVersion major minor) = major ∧ minorVersion (encodeVersion major minor) = minor := by
  have h1 := major.isLt
  have h2 := minor.isLt
  have e : (encodeVersion major minor).toNat = major.toNat * 65536 + minor.toNat := by
    simp [encodeVersion, BitVec.toNat_add, BitVec.toNat_shiftLeft, Nat.shiftLeft_eq]
    omega
  have land16 : ∀ n : Nat, n &&& 0xffff = n % 65536 := fun n => Nat.and_two_pow_sub_one_eq_mod n 16
  constructor
  · apply BitVec.eq_of_toNat_eq
    have hs : ((encodeVersion major minor &&& 0xffff0000#32) >>> 16) = (encodeVersion major minor) >>> 16 := by
      apply BitVec.eq_of_getLsbD_eq
      intro i hi
      simp only [BitVec.getLsbD_ushiftRight, BitVec.getLsbD_and]
      have : (0xffff0000#32).getLsbD (16 + i) = decide (16 + i < 32) := by
        have hcases : ∀ j, j < 32 → (0xffff0000#32).getLsbD (16 + j) = decide (16 + j < 32) := by decide
        exact hcases i hi
      rw [this]
      by_cases hj : 16 + i < 32
      · simp [hj]
      · simp [hj, BitVec.getLsbD_of_ge _ _ (show 32 ≤ 16 + i by omega)]
    unfold majorVersion
    rw [hs]
    simp [Nat.shiftRight_eq_div_pow, e]
    omega
  · apply BitVec.eq_of_toNat_eq
    simp only [minorVersion, BitVec.truncate_eq_setWidth, BitVec.toNat_setWidth, BitVec.toNat_and, e]
    have : (0x0000ffff#32).toNat = 0xffff := rfl
    rw [this, land16]
    omega

/-- **C08**. Comparing encoded words orders versions lexicographically. -/
theorem C08_version_order (a b c d : BitVec 16) :
    encodeVersion a b < encodeVersion c d ↔ a < c ∨ (a = c ∧ b < d) := by
  have e : ∀ x y : BitVec 16, (encodeVersion x y).toNat = x.toNat * 65536 + y.toNat := by
    intro x y
    have h1 := x.isLt
    have h2 := y.isLt
    simp [encodeVersion, BitVec.toNat_add, BitVec.toNat_shiftLeft, Nat.shiftLeft_eq]
    omega
  have hb := b.isLt
  have hd := d.isLt
  rw [BitVec.lt_def, e, e, BitVec.lt_def, BitVec.lt_def, ← BitVec.toNat_inj]
  omega

example : encodeVersion 2 14 = 0x0002000e#32 ∧ encodeVersion 1 65535 < encodeVersion 2 0 := by decide

/-- **C10**. After any read program has run on a device without pending pointers, relocation sets each
pointer slot that the program filled to the object its match word refers to (`resolve`: the first one
registered under it, or null), in order, and changes no other memory and nothing else but the (emptied)
tables. -/
theorem C10_relocation_exact {α : Type} (p : RProg α) (d d' : RDev) (a : α)
    (hpt : d.pointerTo = []) (hpa : d.pointedAt = []) (hr : p.run d = .ok (a, d')) :
    d'.relocate = .ok { d' with
      mem := d.mem ++ (slotWords (refEvents p d)).map (resolve (refEvents p d)), pointedAt := [], pointerTo := [] } := by
  have hm : MemOk d.mem.length d := by
    refine ⟨by rw [hpt]; exact List.Pairwise.nil, Nat.le_refl _, ?_⟩
    intro m i
    rw [hpt]
    constructor
    · intro h; cases h
    · rintro ⟨h1, h2, _⟩
      rw [List.getElem?_eq_none h1] at h2
      cases h2
  obtain ⟨h1, h2, _⟩ := run_refEvents p d d' a hr
  rw [RDev.relocate_base _ d' (run_MemOk _ p d d' a hr hm), h1, h2, hpa]
  simp only [List.take_left, List.drop_left]
  congr 3
  apply List.map_congr_left
  intro w _
  exact relocWord_resolve _ w

/-- Two slots and two objects: the first slot points at the second object, the other one at nothing. -/
example : let p : RProg Unit := do
            let _ ← rPtr; let o1 ← rNew; rTag o1; let _ ← rPtr; let o2 ← rNew; rTag o2
          let d : RDev := { buf := [0, 0, 0, 5, 255, 255, 255, 255, 0, 0, 0, 6, 0, 0, 0, 5], mem := [77] }
          ∃ d', p.run d = .ok ((), d') ∧ d'.relocate = .ok { d' with mem := [77, 2, 0], pointedAt := [], pointerTo := [] } :=
  ⟨_, rfl, rfl⟩

end Props
