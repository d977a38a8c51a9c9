import Verif.Util.BitField
import Verif.Lcio.ParamsLemmas
import Mathlib.Tactic.Ring
/-
Lemmas about bit fields.
-/
namespace Util
open Sio Lcio

/-- What the constructor of a field establishes. -/
structure FieldOk (f : Field) : Prop where
  off : f.offset ≤ 63
  fit : f.offset + f.width ≤ 64
  wid : f.width ≤ 62
  uns : f.signed = false → f.width ≤ 31
  sgn : f.signed = true → 1 ≤ f.width
  mask : f.mask = (((1 : W64) <<< f.width) - 1) <<< f.offset
  umin : f.signed = false → f.minVal = 0
  umax : f.signed = false → f.maxVal = ((1 : W32) <<< f.width).toInt
  smin : f.signed = true → f.minVal = ((((1 : W64) <<< (f.width - 1)) - ((1 : W64) <<< f.width)).setWidth 32).toInt
  smax : f.signed = true → f.maxVal = ((((1 : W64) <<< (f.width - 1)) - 1).setWidth 32).toInt

/-- The width as the constructor takes it. -/
def Field.sw (f : Field) : Int := if f.signed then -(f.width : Int) else f.width

theorem mkField_ok {n : Str} {o : Nat} {sw : Int} {f : Field} (h : mkField n o sw = .ok f) :
    f.name = n ∧ f.offset = o ∧ f.sw = sw ∧ FieldOk f := by
  unfold mkField at h
  split at h
  · cases h
  · simp only at h
    split at h
    · cases h
    · rename_i h1
      split at h
      · cases h
      · rename_i h2
        split at h
        · rename_i h3
          cases h
          refine ⟨rfl, rfl, ?_, ?_⟩
          · simp only [Field.sw, ↓reduceIte]; omega
          · constructor <;> simp <;> omega
        · rename_i h3
          split at h
          · cases h
          · cases h
            refine ⟨rfl, rfl, ?_, ?_⟩
            · simp only [Field.sw]
              have : (sw.natAbs : Int) = sw := by omega
              simpa using this
            · constructor <;> simp <;> omega

theorem mkField_again {n : Str} {o : Nat} {sw : Int} {f : Field} (h : mkField n o sw = .ok f) : mkField f.name f.offset f.sw = .ok f := by
  obtain ⟨rfl, rfl, rfl, _⟩ := mkField_ok h
  exact h

theorem ones_bit (w k : Nat) (hw : w ≤ 64) : (((1 : W64) <<< w) - 1).getLsbD k = decide (k < w) := by
  have e : ((1 : W64) <<< w) - 1 = BitVec.ofNat 64 (2 ^ w - 1) := by
    apply BitVec.eq_of_toNat_eq
    have h1 : (2 : Nat) ^ w ≥ 1 := Nat.one_le_two_pow
    have h2 : (2 : Nat) ^ w ≤ 2 ^ 64 := Nat.pow_le_pow_right (by decide) hw
    simp only [BitVec.toNat_sub, BitVec.toNat_shiftLeft, BitVec.toNat_ofNat, Nat.shiftLeft_eq]
    by_cases hh : w = 64
    · subst hh; decide
    · have h3 : (2 : Nat) ^ w < 2 ^ 64 := Nat.pow_lt_pow_right (by decide) (by omega)
      have h1t : (1 : W64).toNat = 1 := rfl
      rw [h1t, Nat.one_mul]
      omega
  rw [e, BitVec.getLsbD_ofNat, Nat.testBit_two_pow_sub_one]
  by_cases hk : k < w
  · simp [hk]; omega
  · simp [hk]

theorem mask_bit {f : Field} (h : FieldOk f) (k : Nat) : f.mask.getLsbD k = decide (f.offset ≤ k ∧ k < f.offset + f.width) := by
  have := h.wid; have := h.fit
  rw [h.mask, BitVec.getLsbD_shiftLeft, ones_bit _ _ (by omega)]
  by_cases h1 : f.offset ≤ k
  · by_cases h2 : k < f.offset + f.width
    · have a : k < 64 := by omega
      have b : ¬ k < f.offset := by omega
      have c : k - f.offset < f.width := by omega
      simp [h1, h2, a, c]
    · have c : ¬ k - f.offset < f.width := by omega
      simp [h2, c]
  · simp [h1]

/-- The bits of the field. -/
theorem raw_value {f : Field} (h : FieldOk f) (b : W64) : (b &&& f.mask) >>> f.offset = (b.extractLsb' f.offset f.width).setWidth 64 := by
  have := h.wid; have := h.fit
  apply BitVec.eq_of_getLsbD_eq
  intro k hk
  rw [BitVec.getLsbD_ushiftRight, BitVec.getLsbD_and, mask_bit h, BitVec.getLsbD_setWidth, BitVec.getLsbD_extractLsb']
  by_cases h2 : k < f.width
  · simp [h2, hk]
  · simp [h2]

theorem signed_value (w : Nat) (h1 : 1 ≤ w) (h62 : w ≤ 62) (x : BitVec w) :
    (if ((x.setWidth 64 : W64) &&& ((1 : W64) <<< (w - 1))) != 0 then x.setWidth 64 - ((1 : W64) <<< w) else (x.setWidth 64 : W64)).toInt = x.toInt := by
  have hx := x.isLt
  have hp : (2 : Nat) ^ w = 2 * 2 ^ (w - 1) := by
    rw [← Nat.pow_succ']; congr 1; omega
  have hw : (2 : Nat) ^ w ≤ 2 ^ 62 := Nat.pow_le_pow_right (by decide) h62
  have hx64 : (x.setWidth 64 : W64).toNat = x.toNat := by
    rw [BitVec.toNat_setWidth, Nat.mod_eq_of_lt (by omega)]
  have hb : ((1 : W64) <<< (w - 1)) = BitVec.twoPow 64 (w - 1) := by rw [BitVec.twoPow_eq]; rfl
  have hand : (((x.setWidth 64 : W64) &&& ((1 : W64) <<< (w - 1))) != 0) = x.msb := by
    rw [hb, BitVec.and_twoPow, BitVec.getLsbD_setWidth, BitVec.msb_eq_getLsbD_last]
    have : w - 1 < 64 := by omega
    cases hx : x.getLsbD (w - 1)
    · simp [this]
    · simp only [this, decide_true, Bool.true_and, ↓reduceIte]
      rw [bne_iff_ne]
      intro hc
      have := congrArg (fun y : W64 => y.getLsbD (w - 1)) hc
      simp [BitVec.getLsbD_twoPow] at this
      omega
  rw [hand]
  have h1w : ((1 : W64) <<< w).toNat = 2 ^ w := by
    rw [BitVec.toNat_shiftLeft, Nat.shiftLeft_eq]
    have h1t : (1 : W64).toNat = 1 := rfl
    rw [h1t, Nat.one_mul]
    omega
  cases hm : x.msb with
  | false =>
    have := BitVec.msb_eq_false_iff_two_mul_lt.1 hm
    simp only [Bool.false_eq_true, ↓reduceIte]
    rw [BitVec.toInt_eq_toNat_of_lt (by rw [hx64]; omega), hx64, BitVec.toInt_eq_toNat_of_lt this]
  | true =>
    have := BitVec.msb_eq_true_iff_two_mul_ge.1 hm
    simp only [↓reduceIte]
    have e : (x.setWidth 64 - ((1 : W64) <<< w)).toNat = 2 ^ 64 - 2 ^ w + x.toNat := by
      rw [BitVec.toNat_sub, h1w, hx64, Nat.mod_eq_of_lt (by omega)]
    rw [BitVec.toInt_eq_toNat_cond, BitVec.toInt_eq_toNat_cond, e, if_neg (by omega), if_neg (by omega)]
    have : ((2 ^ w : Nat) : Int) ≤ ((2 ^ 64 : Nat) : Int) := by exact_mod_cast (by omega : (2:Nat)^w ≤ 2 ^ 64)
    omega

/-- Reading a field. -/
theorem value_signed {f : Field} (h : FieldOk f) (hs : f.signed = true) (b : W64) : (f.value b).toInt = (b.extractLsb' f.offset f.width).toInt := by
  unfold Field.value
  simp only [hs, ↓reduceIte]
  rw [raw_value h]
  exact signed_value f.width (h.sgn hs) h.wid _

theorem value_unsigned {f : Field} (h : FieldOk f) (hs : f.signed = false) (b : W64) : (f.value b).toInt = (b.extractLsb' f.offset f.width).toNat := by
  unfold Field.value
  simp only [hs, Bool.false_eq_true, ↓reduceIte]
  rw [raw_value h]
  have hx := (b.extractLsb' f.offset f.width).isLt
  have hw : (2 : Nat) ^ f.width ≤ 2 ^ 62 := Nat.pow_le_pow_right (by decide) h.wid
  have hx64 : ((b.extractLsb' f.offset f.width).setWidth 64 : W64).toNat = (b.extractLsb' f.offset f.width).toNat := by
    rw [BitVec.toNat_setWidth, Nat.mod_eq_of_lt (by omega)]
  rw [BitVec.toInt_eq_toNat_of_lt (by rw [hx64]; omega), hx64]

/-- The bits after an assignment. -/
theorem put_bit {f : Field} (h : FieldOk f) (b x : W64) (k : Nat) (hk : k < 64) :
    ((b &&& ~~~f.mask) ||| ((x <<< f.offset) &&& f.mask)).getLsbD k =
      if f.offset ≤ k ∧ k < f.offset + f.width then x.getLsbD (k - f.offset) else b.getLsbD k := by
  rw [BitVec.getLsbD_or, BitVec.getLsbD_and, BitVec.getLsbD_and, BitVec.getLsbD_not, mask_bit h, BitVec.getLsbD_shiftLeft]
  by_cases hc : f.offset ≤ k ∧ k < f.offset + f.width
  · simp [hc, hk]
  · simp [hc, hk]

theorem put_extract {f : Field} (h : FieldOk f) (b x : W64) :
    ((b &&& ~~~f.mask) ||| ((x <<< f.offset) &&& f.mask)).extractLsb' f.offset f.width = x.setWidth f.width := by
  have := h.fit
  apply BitVec.eq_of_getLsbD_eq
  intro k hk
  rw [BitVec.getLsbD_extractLsb', put_bit h _ _ _ (by omega), BitVec.getLsbD_setWidth]
  simp [hk]

theorem put_other {f : Field} (h : FieldOk f) (b x : W64) (o w : Nat) (hfit : o + w ≤ 64)
    (hd : ∀ k, (f.offset ≤ k ∧ k < f.offset + f.width) → ¬ (o ≤ k ∧ k < o + w)) :
    ((b &&& ~~~f.mask) ||| ((x <<< f.offset) &&& f.mask)).extractLsb' o w = b.extractLsb' o w := by
  apply BitVec.eq_of_getLsbD_eq
  intro k hk
  rw [BitVec.getLsbD_extractLsb', BitVec.getLsbD_extractLsb', put_bit h _ _ _ (by omega)]
  have : ¬ (f.offset ≤ o + k ∧ o + k < f.offset + f.width) := fun hc => hd _ hc ⟨by omega, by omega⟩
  simp [this]

/-- Fields that do not overlap. -/
def Apart (f g : Field) : Prop := ∀ k, (f.offset ≤ k ∧ k < f.offset + f.width) → ¬ (g.offset ≤ k ∧ k < g.offset + g.width)

theorem Apart.symm {f g : Field} (h : Apart f g) : Apart g f := fun k hk hc => h k hc hk

/-- What holds of every constructed bit field. -/
structure Made (b : BitField) : Prop where
  fields : ∀ f ∈ b.fields, FieldOk f
  again : ∀ f ∈ b.fields, mkField f.name f.offset f.sw = .ok f
  joined : ∀ k, b.joined.getLsbD k = true ↔ ∃ f ∈ b.fields, f.offset ≤ k ∧ k < f.offset + f.width
  apart : b.fields.Pairwise Apart
  ordered : Ordered strLt b.map
  found : ∀ n i, omFind strLt n b.map = some i → (∃ f, b.fields[i]? = some f ∧ f.name = n) ∧ ∀ j f, i < j → b.fields[j]? = some f → f.name ≠ n
  missing : ∀ n, omFind strLt n b.map = none → ∀ f ∈ b.fields, f.name ≠ n

theorem Made.empty : Made {} := by
  constructor <;> simp [Ordered, omFind]

theorem Made.add {b : BitField} (hb : Made b) {n : Str} {o : Nat} {w : Int} {b' : BitField} (h : b.addField n o w = .ok b') :
    Made b' ∧ b'.value = b.value ∧ ∃ f, mkField n o w = .ok f ∧ b'.fields = b.fields ++ [f] := by
  unfold BitField.addField at h
  split at h
  · cases h
  · rename_i f hf
    split at h
    · cases h
    · rename_i hj
      cases h
      obtain ⟨hn, -, -, fok⟩ := mkField_ok hf
      have hj' : ∀ k, k < 64 → b.joined.getLsbD k = true → f.mask.getLsbD k = true → False := by
        intro k hk h1 h2
        apply hj
        rw [bne_iff_ne]
        intro hc
        have := congrArg (fun y : W64 => y.getLsbD k) hc
        simp [h1, h2] at this
      have hap : ∀ g ∈ b.fields, Apart g f := by
        intro g hg k hk hc
        have := (hb.fields g hg).fit
        exact hj' k (by omega) ((hb.joined k).2 ⟨g, hg, hk⟩) (by rw [mask_bit fok]; exact decide_eq_true hc)
      refine ⟨?_, rfl, f, hf, rfl⟩
      constructor
      · intro g hg
        rcases List.mem_append.1 hg with hg | hg
        · exact hb.fields g hg
        · rw [List.mem_singleton.1 hg]; exact fok
      · intro g hg
        rcases List.mem_append.1 hg with hg | hg
        · exact hb.again g hg
        · rw [List.mem_singleton.1 hg]; exact mkField_again hf
      · intro k
        simp only [BitVec.getLsbD_or, Bool.or_eq_true, hb.joined k, mask_bit fok, List.mem_append, List.mem_singleton, decide_eq_true_eq]
        constructor
        · rintro (⟨g, hg, hk⟩ | hk)
          · exact ⟨g, Or.inl hg, hk⟩
          · exact ⟨f, Or.inr rfl, hk⟩
        · rintro ⟨g, hg | rfl, hk⟩
          · exact Or.inl ⟨g, hg, hk⟩
          · exact Or.inr hk
      · rw [List.pairwise_append]
        refine ⟨hb.apart, List.pairwise_singleton _ _, ?_⟩
        intro g hg g' hg'
        rw [List.mem_singleton.1 hg']
        exact hap g hg
      · exact (omAssign_keys strWeak _ _ _ hb.ordered).1
      · intro m i hm
        rw [omFind_assign strWeak] at hm
        split at hm
        · rename_i he
          cases hm
          have he := (eqv_str _ _).1 he
          refine ⟨⟨f, by simp, by rw [hn, he]⟩, ?_⟩
          intro j g hj hg
          rw [List.getElem?_eq_none (by simp; omega)] at hg
          cases hg
        · rename_i he
          obtain ⟨⟨g, hg, hgn⟩, h2⟩ := hb.found m i hm
          refine ⟨⟨g, ?_, hgn⟩, ?_⟩
          · rw [List.getElem?_append_left (List.getElem?_eq_some_iff.1 hg).1]; exact hg
          · intro j g' hj hg'
            by_cases hlt : j < b.fields.length
            · rw [List.getElem?_append_left hlt] at hg'
              exact h2 j g' hj hg'
            · rw [List.getElem?_append_right (by omega)] at hg'
              have : g' = f := by
                rw [List.getElem?_singleton] at hg'
                split at hg' <;> simp_all
              rw [this, hn]
              intro hc
              exact he ((eqv_str _ _).2 hc)
      · intro m hm g hg
        rw [omFind_assign strWeak] at hm
        split at hm
        · cases hm
        · rename_i he
          rcases List.mem_append.1 hg with hg | hg
          · exact hb.missing m hm g hg
          · rw [List.mem_singleton.1 hg, hn]
            intro hc
            exact he ((eqv_str _ _).2 hc)

theorem Made.loop {ds : List Str} : ∀ {o : Nat} {b b' : BitField}, Made b → initLoop o b ds = .ok b' → Made b' ∧ b'.value = b.value := by
  induction ds with
  | nil => intro o b b' hb h; cases h; exact ⟨hb, rfl⟩
  | cons d ds ih =>
    intro o b b' hb h
    unfold initLoop at h
    split at h
    · cases h
    · split at h
      · cases h
      · rename_i b1 hadd
        have := hb.add hadd
        have h2 := ih this.1 h
        exact ⟨h2.1, h2.2.trans this.2.1⟩

theorem make_made {init : Str} {b : BitField} (h : BitField.make init = .ok b) : Made b ∧ b.value = 0 := Made.empty.loop h

end Util
