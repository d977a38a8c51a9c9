import Verif.Spec.Bits
import Verif.Util.BitLemmas
/-
Properties of bit fields: C49.
-/
namespace Props
open Sio Lcio Spec Util

theorem umax_good : ∀ w : Fin 31, ((1 : W32) <<< w.val).toInt = 2 ^ w.val := by decide
theorem smin_good : ∀ w : Fin 33, 1 ≤ w.val → ((((1 : W64) <<< (w.val - 1)) - ((1 : W64) <<< w.val)).setWidth 32).toInt = -2 ^ (w.val - 1) := by decide
theorem smax_good : ∀ w : Fin 33, 1 ≤ w.val → ((((1 : W64) <<< (w.val - 1)) - 1).setWidth 32).toInt = 2 ^ (w.val - 1) - 1 := by decide
theorem smin_bad : ∀ w : Fin 63, 33 ≤ w.val → ((((1 : W64) <<< (w.val - 1)) - ((1 : W64) <<< w.val)).setWidth 32).toInt = 0 := by decide
theorem smax_bad : ∀ w : Fin 63, 33 ≤ w.val → ((((1 : W64) <<< (w.val - 1)) - 1).setWidth 32).toInt = -1 := by decide

theorem bounds_good {f : Field} (h : FieldOk f) (hg : GoodWidth f) :
    f.minVal = fieldLo f.signed f.width ∧ f.maxVal = fieldHi f.signed f.width + if f.signed then 0 else 1 := by
  cases hs : f.signed with
  | true =>
    simp only [GoodWidth, hs, ↓reduceIte] at hg
    have h1 := smin_good ⟨f.width, by omega⟩ (h.sgn hs)
    have h2 := smax_good ⟨f.width, by omega⟩ (h.sgn hs)
    simp only at h1 h2
    rw [h.smin hs, h.smax hs, h1, h2]
    simp [fieldLo, fieldHi]
  | false =>
    simp only [GoodWidth, hs, Bool.false_eq_true, ↓reduceIte] at hg
    have h1 := umax_good ⟨f.width, by omega⟩
    simp only at h1
    rw [h.umin hs, h.umax hs, h1]
    simp [fieldLo, fieldHi]

theorem value_num {f : Field} (h : FieldOk f) (b : W64) : (f.value b).toInt = fieldNum f.signed b f.offset f.width := by
  cases hs : f.signed with
  | true => rw [value_signed h hs]; simp [fieldNum]
  | false => rw [value_unsigned h hs]; simp [fieldNum]

/-- A number that fits is not changed by cutting it to the width. -/
theorem cut_fits {f : Field} (h : FieldOk f) (x : W64) (hx : Fits f x) :
    (if f.signed then (x.setWidth f.width).toInt else ((x.setWidth f.width).toNat : Int)) = x.toInt := by
  have hw := h.wid
  have h2 : (2 : Int) ^ f.width ≤ 2 ^ 62 := by
    have := Nat.pow_le_pow_right (n := 2) (by decide) hw
    exact_mod_cast this
  unfold Fits fieldLo fieldHi at hx
  cases hs : f.signed with
  | true =>
    simp only [hs, ↓reduceIte] at hx ⊢
    have h1 := h.sgn hs
    have hp : (2 : Int) ^ f.width = 2 * 2 ^ (f.width - 1) := by
      rw [← Int.pow_succ']; congr 1; omega
    have hn : ((2 ^ f.width : Nat) : Int) = 2 ^ f.width := by push_cast; rfl
    rw [BitVec.toInt_setWidth]
    have : (x.toNat : Int).bmod (2 ^ f.width) = x.toInt.bmod (2 ^ f.width) := by
      rw [BitVec.toInt_eq_toNat_cond]
      split
      · rfl
      · have e : ((2 ^ 64 : Nat) : Int) = ((2 ^ f.width : Nat) : Int) * 2 ^ (64 - f.width) := by
          rw [hn, ← Int.pow_add]
          have : f.width + (64 - f.width) = 64 := by omega
          rw [this]; rfl
        rw [e, Int.sub_mul_bmod_self_left]
    rw [this]
    apply Int.bmod_eq_of_le
    · rw [hn]; omega
    · rw [hn]; omega
  | false =>
    simp only [hs, Bool.false_eq_true, ↓reduceIte] at hx ⊢
    have hpos : (0 : Int) ≤ x.toInt := hx.1
    have hnat : x.toInt = x.toNat := by
      rw [BitVec.toInt_eq_toNat_cond] at hpos ⊢
      have := x.isLt
      split
      · rfl
      · rename_i hc
        rw [if_neg hc] at hpos
        have e : ((2 ^ 64 : Nat) : Int) = 18446744073709551616 := by norm_num
        omega
    rw [BitVec.toNat_setWidth, hnat]
    have : x.toNat < 2 ^ f.width := by
      have := hx.2
      rw [hnat] at this
      have hn : ((2 ^ f.width : Nat) : Int) = 2 ^ f.width := by push_cast; rfl
      omega
    rw [Nat.mod_eq_of_lt this]

theorem apart_at {b : BitField} (hb : Made b) {i j : Nat} {f g : Field} (hi : b.fields[i]? = some f) (hj : b.fields[j]? = some g) (hne : j ≠ i) : Apart f g := by
  obtain ⟨li, rfl⟩ := List.getElem?_eq_some_iff.1 hi
  obtain ⟨lj, rfl⟩ := List.getElem?_eq_some_iff.1 hj
  have := List.pairwise_iff_getElem.1 hb.apart
  rcases Nat.lt_or_gt_of_ne hne with h | h
  · exact (this j i lj li h).symm
  · exact this i j li lj h

/-- **C49**, reading. A field of any bit field that was constructed, with any content, reads as the number that the bits from its offset on make. -/
theorem C49_read (init : Str) (b : BitField) (hb : BitField.make init = .ok b) (v : W64) (i : Nat) (f : Field) (hf : b.fields[i]? = some f) :
    ∃ x, (b.setValue v).get i = .ok x ∧ x.toInt = fieldNum f.signed v f.offset f.width := by
  have m := (make_made hb).1
  have fok := m.fields f (List.mem_of_getElem? hf)
  refine ⟨f.value v, ?_, value_num fok v⟩
  unfold BitField.get BitField.setValue
  simp only [hf]

/-- **C49**, layouts. The fields of a bit field that was constructed lie within the 64 bits and have no bit in common. -/
theorem C49_layout (init : Str) (b : BitField) (hb : BitField.make init = .ok b) :
    (∀ f ∈ b.fields, f.offset + f.width ≤ 64) ∧
    ∀ (i j : Nat) (f g : Field), b.fields[i]? = some f → b.fields[j]? = some g → i ≠ j →
      ∀ k, f.offset ≤ k → k < f.offset + f.width → ¬ (g.offset ≤ k ∧ k < g.offset + g.width) := by
  have m := (make_made hb).1
  exact ⟨fun f hf => (m.fields f hf).fit, fun i j f g hi hj hne k h1 h2 => apart_at m hi hj (Ne.symm hne) k ⟨h1, h2⟩⟩

theorem set_fits {b : BitField} (m : Made b) (v : W64) {i : Nat} {f : Field} (hf : b.fields[i]? = some f) (hg : GoodWidth f) {x : W64} (hx : Fits f x) :
    (b.setValue v).set i x = (.ok (), b.setValue ((v &&& ~~~f.mask) ||| ((x <<< f.offset) &&& f.mask))) := by
  have fok := m.fields f (List.mem_of_getElem? hf)
  obtain ⟨h1, h2⟩ := bounds_good fok hg
  have : ¬ (x.toInt < f.minVal ∨ f.maxVal < x.toInt) := by
    rw [h1, h2]
    unfold Fits at hx
    split <;> omega
  unfold BitField.set BitField.setValue
  simp only [hf, Field.assign, if_neg this]

/-- **C49**, the part that holds. For every bit field that was constructed, with any content: assigning a number that fits a field of a supported width succeeds, the field reads back as
that number, and every other field and every bit outside the field is as before. -/
theorem C49_assign_partial (init : Str) (b : BitField) (hb : BitField.make init = .ok b) (v : W64) (i : Nat) (f : Field) (hf : b.fields[i]? = some f)
    (hg : GoodWidth f) (x : W64) (hx : Fits f x) :
    ∃ v', (b.setValue v).set i x = (.ok (), b.setValue v') ∧
      (∃ y, (b.setValue v').get i = .ok y ∧ y.toInt = x.toInt) ∧
      (∀ j, j ≠ i → (b.setValue v').get j = (b.setValue v).get j) ∧
      ∀ k, k < 64 → ¬ (f.offset ≤ k ∧ k < f.offset + f.width) → v'.getLsbD k = v.getLsbD k := by
  have m := (make_made hb).1
  have fok := m.fields f (List.mem_of_getElem? hf)
  refine ⟨_, set_fits m v hf hg hx, ?_, ?_, ?_⟩
  · obtain ⟨y, h1, h2⟩ := C49_read init b hb ((v &&& ~~~f.mask) ||| ((x <<< f.offset) &&& f.mask)) i f hf
    refine ⟨y, h1, ?_⟩
    rw [h2]
    unfold fieldNum
    rw [put_extract fok]
    exact cut_fits fok x hx
  · intro j hj
    unfold BitField.get BitField.setValue
    simp only
    cases hgj : b.fields[j]? with
    | none => rfl
    | some g =>
      simp only
      have gok := m.fields g (List.mem_of_getElem? hgj)
      have e := put_other fok v x g.offset g.width gok.fit (apart_at m hf hgj hj)
      congr 1
      apply BitVec.eq_of_toInt_eq
      rw [value_num gok, value_num gok]
      unfold fieldNum
      rw [e]
  · intro k hk hc
    rw [put_bit fok _ _ _ hk, if_neg hc]

/-- **C49**, rejection. A number that is smaller than the smallest, or larger than the largest number of the field (by more than one if the field is unsigned) is rejected with an exception,
and the bit field is as before. -/
theorem C49_reject_partial (init : Str) (b : BitField) (hb : BitField.make init = .ok b) (v : W64) (i : Nat) (f : Field) (hf : b.fields[i]? = some f)
    (hg : GoodWidth f) (x : W64) (hx : x.toInt < fieldLo f.signed f.width ∨ fieldHi f.signed f.width < x.toInt - if f.signed then 0 else 1) :
    (b.setValue v).set i x = (.error .lcException, b.setValue v) := by
  have m := (make_made hb).1
  have fok := m.fields f (List.mem_of_getElem? hf)
  obtain ⟨h1, h2⟩ := bounds_good fok hg
  have : x.toInt < f.minVal ∨ f.maxVal < x.toInt := by
    rw [h1, h2]
    split at hx <;> split <;> omega
  unfold BitField.set BitField.setValue
  simp only [hf, Field.assign, if_pos this]

/-- **C49** fails at the upper end: every unsigned field of up to 30 bits takes a number that is one too large, and reads back as zero. -/
theorem C49_fails_above (init : Str) (b : BitField) (hb : BitField.make init = .ok b) (v : W64) (i : Nat) (f : Field) (hf : b.fields[i]? = some f)
    (hg : GoodWidth f) (hs : f.signed = false) (x : W64) (hx : x.toInt = fieldHi f.signed f.width + 1) :
    ∃ v' y, (b.setValue v).set i x = (.ok (), b.setValue v') ∧ (b.setValue v').get i = .ok y ∧ y.toInt = 0 := by
  have m := (make_made hb).1
  have fok := m.fields f (List.mem_of_getElem? hf)
  obtain ⟨h1, h2⟩ := bounds_good fok hg
  have hw := fok.wid
  simp only [hs, fieldHi, fieldLo, Bool.false_eq_true, ↓reduceIte] at hx h1 h2
  have : ¬ (x.toInt < f.minVal ∨ f.maxVal < x.toInt) := by
    have : (0 : Int) ≤ 2 ^ f.width := Int.pow_nonneg (by decide)
    rw [h1, h2]; omega
  obtain ⟨y, e1, e2⟩ := C49_read init b hb ((v &&& ~~~f.mask) ||| ((x <<< f.offset) &&& f.mask)) i f hf
  refine ⟨_, y, ?_, e1, ?_⟩
  · unfold BitField.set BitField.setValue
    simp only [hf, Field.assign, if_neg this]
  · rw [e2]
    unfold fieldNum
    rw [put_extract fok]
    simp only [hs, Bool.false_eq_true, ↓reduceIte, BitVec.toNat_setWidth]
    have hxn : (x.toNat : Int) = 2 ^ f.width := by
      have hpos : (0 : Int) ≤ 2 ^ f.width := Int.pow_nonneg (by decide)
      rw [BitVec.toInt_eq_toNat_cond] at hx
      have := x.isLt
      split at hx
      · omega
      · have e : ((2 ^ 64 : Nat) : Int) = 18446744073709551616 := by norm_num
        omega
    have : x.toNat = 2 ^ f.width := by exact_mod_cast hxn
    rw [this, Nat.mod_self]
    rfl

/-- **C49** fails for wide fields: an unsigned field of 31 bits and a signed one of 33 to 62 bits take no number at all. -/
theorem C49_fails_wide (init : Str) (b : BitField) (hb : BitField.make init = .ok b) (v : W64) (i : Nat) (f : Field) (hf : b.fields[i]? = some f)
    (hw : ¬ GoodWidth f) (x : W64) : (b.setValue v).set i x = (.error .lcException, b.setValue v) := by
  have m := (make_made hb).1
  have fok := m.fields f (List.mem_of_getElem? hf)
  have : x.toInt < f.minVal ∨ f.maxVal < x.toInt := by
    cases hs : f.signed with
    | true =>
      simp only [GoodWidth, hs, ↓reduceIte] at hw
      have := fok.wid
      have h1 := smin_bad ⟨f.width, by omega⟩ (by simp only; omega)
      have h2 := smax_bad ⟨f.width, by omega⟩ (by simp only; omega)
      simp only at h1 h2
      rw [fok.smin hs, fok.smax hs, h1, h2]
      omega
    | false =>
      simp only [GoodWidth, hs, Bool.false_eq_true, ↓reduceIte] at hw
      have h31 : f.width = 31 := by have := fok.uns hs; omega
      have h2 : f.maxVal = -2147483648 := by rw [fok.umax hs, h31]; decide
      rw [fok.umin hs, h2]
      omega
  unfold BitField.set BitField.setValue
  simp only [hf, Field.assign, if_pos this]

/-- **C49** fails for fields of a whole word: describing one is undefined behaviour. -/
theorem C49_fails_word : BitField.make (str "id:32") = .error .ub := by decide +kernel

/-- **C49**, sequences. After any assignments of numbers that fit, in any order, every field reads as the number assigned to it last, or as before if there was none. -/
theorem C49_sequence_partial (init : Str) (b : BitField) (hb : BitField.make init = .ok b) (as : List (Nat × W64)) (v : W64)
    (has : ∀ a ∈ as, ∃ f, b.fields[a.1]? = some f ∧ GoodWidth f ∧ Fits f a.2) :
    ∀ i, match lastAssigned i as with
      | some x => ∃ y, (assignAll (b.setValue v) as).get i = .ok y ∧ y.toInt = x.toInt
      | none => (assignAll (b.setValue v) as).get i = (b.setValue v).get i := by
  induction as generalizing v with
  | nil => intro i; rfl
  | cons a as ih =>
    obtain ⟨j, x⟩ := a
    intro i
    obtain ⟨f, hf, hg, hx⟩ := has _ (List.mem_cons_self ..)
    obtain ⟨v', e1, e2, e3, -⟩ := C49_assign_partial init b hb v j f hf hg x hx
    have := ih v' (fun a ha => has a (List.mem_cons_of_mem _ ha)) i
    simp only [lastAssigned, assignAll, e1]
    cases hl : lastAssigned i as with
    | some y => rw [hl] at this; simpa using this
    | none =>
      rw [hl] at this
      simp only at this ⊢
      rw [this]
      by_cases hij : j = i
      · subst hij
        simp only [↓reduceIte]
        exact e2
      · simp only [hij, ↓reduceIte]
        exact e3 i (Ne.symm hij)

/-- **C49**, names. Access by name is access by the number of the last field of that name, and throws if there is none. -/
theorem C49_names (init : Str) (b : BitField) (hb : BitField.make init = .ok b) (v : W64) (n : Str) :
    (∃ i f, b.fields[i]? = some f ∧ f.name = n ∧ (∀ j g, i < j → b.fields[j]? = some g → g.name ≠ n) ∧
      (b.setValue v).getNamed n = (b.setValue v).get i ∧ ∀ x, (b.setValue v).setNamed n x = (b.setValue v).set i x) ∨
    ((∀ f ∈ b.fields, f.name ≠ n) ∧ (b.setValue v).getNamed n = .error .lcException ∧
      ∀ x, (b.setValue v).setNamed n x = (.error .lcException, b.setValue v)) := by
  have m := (make_made hb).1
  cases h : omFind strLt n b.map with
  | some i =>
    left
    obtain ⟨⟨f, hf, hn⟩, h2⟩ := m.found n i h
    have e : (b.setValue v).index n = .ok i := by
      unfold BitField.index BitField.setValue; simp only [h]
    exact ⟨i, f, hf, hn, h2, by unfold BitField.getNamed; simp only [e], fun x => by unfold BitField.setNamed; simp only [e]⟩
  | none =>
    right
    have e : (b.setValue v).index n = .error .lcException := by
      unfold BitField.index BitField.setValue; simp only [h]
    exact ⟨m.missing n h, by unfold BitField.getNamed; simp only [e], fun x => by unfold BitField.setNamed; simp only [e]⟩

/-! ### Examples -/

/-- The layout in the documentation. -/
def calo : Str := str "layer:7,system:-3,barrel:3,theta:32:11,phi:11"

example : (BitField.make calo).toOption.map layout = some [⟨str "layer", 0, 7, false⟩, ⟨str "system", 7, 3, true⟩, ⟨str "barrel", 10, 3, false⟩,
    ⟨str "theta", 32, 11, false⟩, ⟨str "phi", 43, 11, false⟩] := by decide +kernel

/-- Assignments to three fields, out of order. -/
example : (BitField.make calo).toOption.map (fun b => (assignAll b [(3, 180), (0, 123), (1, -4), (0, 5)]).fields.map fun f =>
    (f.value (assignAll b [(3, 180), (0, 123), (1, -4), (0, 5)]).value).toInt) = some [5, -4, 0, 180, 0] := by decide +kernel

/-- The hypotheses of the theorems above hold for them. -/
example : ∀ b, BitField.make calo = .ok b → ∀ a ∈ ([(3, 180), (0, 123), (1, -4), (0, 5)] : List (Nat × W64)),
    ∃ f, b.fields[a.1]? = some f ∧ GoodWidth f ∧ Fits f a.2 := by
  intro b hb
  have : (BitField.make calo).toOption.map (·.fields) = some b.fields := by rw [hb]; rfl
  have e : b.fields = ((BitField.make calo).toOption.map (·.fields)).getD [] := by rw [this]; rfl
  rw [e]
  unfold GoodWidth Fits
  intro a ha
  simp only [List.mem_cons, List.not_mem_nil, or_false] at ha
  rcases ha with rfl | rfl | rfl | rfl <;> exact ⟨_, rfl, by decide +kernel⟩

/-- The number that is one too large. -/
example : ((BitField.make calo).toOption.map fun b => (((b.set 0 128).1.toOption, ((b.set 0 128).2.get 0).toOption), (b.set 0 129).1.toOption)) =
    some ((some (), some 0), none) := by decide +kernel

end Props
