import Verif.Spec.Build
import Verif.Lcio.FloatLemmas
import Mathlib.Data.List.Induction
/-
Lemmas about the addition of floats and about contributions.
-/
namespace Lcio
open Sio Spec

theorem fMag_lt {x : W32} (h : x.toNat < 16777216) : fMag x = x.toNat := by
  unfold fMag
  have h1 : x.toNat / 8388608 % 256 = x.toNat / 8388608 := Nat.mod_eq_of_lt (by omega)
  simp only [h1]
  split
  · omega
  · have : x.toNat / 8388608 = 1 := by omega
    rw [this]; simp; omega

theorem fMag_enc (sh q : Nat) (h1 : sh ≤ 253) (h2 : 8388608 ≤ q) (h3 : q < 16777216) (x : W32) (hx : x.toNat = sh * 8388608 + q) : fMag x = q * 2 ^ sh := by
  unfold fMag
  have e1 : x.toNat / 8388608 = sh + 1 := by omega
  have e2 : x.toNat % 8388608 = q - 8388608 := by omega
  have e3 : (sh + 1) % 256 = sh + 1 := Nat.mod_eq_of_lt (by omega)
  simp only [e1, e2, e3]
  rw [if_neg (by omega), show q - 8388608 + 8388608 = q by omega, Nat.add_sub_cancel]

theorem pack32_toNat (r : Nat) (h : r < 2147483648) : (pack32 0 r).toNat = r := by
  unfold pack32
  rw [BitVec.toNat_ofNat, Nat.mod_eq_of_lt (by omega)]; omega

theorem fRound_exact (n k : Nat) (hk : k ≤ 253) (hd : 2 ^ k ∣ n) (hn : n < 2 ^ (24 + k)) :
    fMag (pack32 0 (fRound n)) = n ∧ nonNegative (pack32 0 (fRound n)) := by
  unfold fRound
  by_cases h : n < 16777216
  · rw [if_pos h]
    have := pack32_toNat n (by omega)
    exact ⟨by rw [fMag_lt (by rw [this]; exact h), this], by unfold nonNegative; rw [this]; omega⟩
  · rw [if_neg h]
    have hn0 : n ≠ 0 := by omega
    have hL1 : 2 ^ n.log2 ≤ n := Nat.log2_self_le hn0
    have hL2 : n < 2 ^ (n.log2 + 1) := Nat.lt_log2_self
    have hL : 24 ≤ n.log2 := by
      rcases Nat.lt_or_ge n.log2 24 with hh | hh
      · exfalso
        have : 2 ^ (n.log2 + 1) ≤ 2 ^ 24 := Nat.pow_le_pow_right (by omega) (by omega)
        have : (2 : Nat) ^ 24 = 16777216 := by decide
        omega
      · exact hh
    have hsk : n.log2 - 23 ≤ k := by
      have : n.log2 < 24 + k := by
        rcases Nat.lt_or_ge n.log2 (24 + k) with hh | hh
        · exact hh
        · have : 2 ^ (24 + k) ≤ 2 ^ n.log2 := Nat.pow_le_pow_right (by omega) hh
          omega
      omega
    generalize hsh : n.log2 - 23 = sh at *
    have hlog : n.log2 = sh + 23 := by omega
    obtain ⟨q, hq⟩ : 2 ^ sh ∣ n := Nat.dvd_trans (Nat.pow_dvd_pow 2 hsk) hd
    rw [Nat.mul_comm] at hq
    have hp : 0 < 2 ^ sh := Nat.pow_pos (by omega)
    rw [hlog] at hL1 hL2
    have hq1 : 8388608 ≤ q := by
      rw [hq, show sh + 23 = 23 + sh by omega, Nat.pow_add] at hL1
      have := Nat.le_of_mul_le_mul_right hL1 hp
      have e : (2 : Nat) ^ 23 = 8388608 := by decide
      omega
    have hq2 : q < 16777216 := by
      rw [hq, show sh + 23 + 1 = 24 + sh by omega, Nat.pow_add] at hL2
      have := Nat.lt_of_mul_lt_mul_right hL2
      have e : (2 : Nat) ^ 24 = 16777216 := by decide
      omega
    have hr : rne n sh = q := by rw [hq]; exact rne_exact q sh (by omega)
    rw [hr, Nat.min_eq_left (by omega)]
    have := pack32_toNat (sh * 8388608 + q) (by omega)
    exact ⟨by rw [fMag_enc sh q (by omega) hq1 hq2 _ this]; exact hq.symm, by unfold nonNegative; rw [this]; omega⟩

theorem addToParticle_map (add : W32 → W32 → W32) (p : Nat) (en : W32) (g : Nat → SimCont) (hg : ∀ q, (g q).particle = q) (qs : List Nat) (hn : qs.Nodup) :
    addToParticle add p en (qs.map g) =
      if p ∈ qs then some (qs.map fun q => if q = p then { g q with energy := add (g q).energy en } else g q) else none := by
  induction qs with
  | nil => rfl
  | cons q qs ih =>
    obtain ⟨h1, h2⟩ := List.nodup_cons.1 hn
    rw [List.map_cons, addToParticle, hg]
    by_cases h : q = p
    · rw [if_pos h, if_pos (by rw [h]; exact List.mem_cons_self), List.map_cons, if_pos h]
      congr 2
      · simp only [hg]
      apply List.map_congr_left
      intro a ha
      rw [if_neg]
      rintro rfl
      exact h1 (h ▸ ha)
    · rw [if_neg h, ih h2]
      by_cases h3 : p ∈ qs
      · rw [if_pos h3, if_pos (List.mem_cons_of_mem _ h3), Option.map_some, List.map_cons, if_neg h]
      · rw [if_neg h3, if_neg (by simp only [List.mem_cons, not_or]; exact ⟨fun e => h e.symm, h3⟩)]
        rfl

theorem inOrder_snoc (l : List Nat) (a : Nat) : inOrder (l ++ [a]) = if a ∈ inOrder l then inOrder l else inOrder l ++ [a] := by
  unfold inOrder; rw [List.foldl_append]; rfl

theorem mem_inOrder (l : List Nat) : ∀ (a : Nat), a ∈ inOrder l ↔ a ∈ l := by
  induction l using List.reverseRecOn with
  | nil => exact fun _ => Iff.rfl
  | append_singleton l b ih =>
    intro a
    rw [inOrder_snoc]
    have hbi := ih b
    split
    · rename_i h
      have hb := hbi.1 h
      rw [ih, List.mem_append, List.mem_singleton]
      constructor
      · exact Or.inl
      · rintro (h' | h')
        · exact h'
        · rw [h']; exact hb
    · rw [List.mem_append, List.mem_append, ih]

theorem nodup_inOrder (l : List Nat) : (inOrder l).Nodup := by
  induction l using List.reverseRecOn with
  | nil => exact List.nodup_nil
  | append_singleton l b ih =>
    rw [inOrder_snoc]
    split
    · exact ih
    · rename_i h
      rw [List.nodup_append]
      refine ⟨ih, List.nodup_cons.2 ⟨List.not_mem_nil, List.nodup_nil⟩, ?_⟩
      intro a ha b' hb e
      rw [List.mem_singleton] at hb
      exact h (by rw [← hb, ← e]; exact ha)

/-! ## Numbers of both signs -/

theorem pack32_sign (sg r : Nat) (hsg : sg ≤ 1) (h : r < 2147483648) : (pack32 sg r).toNat = sg * 2147483648 + r := by
  unfold pack32
  rw [BitVec.toNat_ofNat]
  have : sg = 0 ∨ sg = 1 := by omega
  rcases this with rfl | rfl
  · rw [Nat.mod_eq_of_lt (by omega)]
  · rw [Nat.mod_eq_of_lt (by omega)]

theorem fMag_sign (r : Nat) (h : r < 2147483648) : fMag (pack32 1 r) = fMag (pack32 0 r) := by
  have h1 := pack32_sign 1 r (by omega) h
  have h0 := pack32_toNat r h
  have e1 : (pack32 1 r).toNat / 8388608 % 256 = (pack32 0 r).toNat / 8388608 % 256 := by rw [h1, h0]; omega
  have e2 : (pack32 1 r).toNat % 8388608 = (pack32 0 r).toNat % 8388608 := by rw [h1, h0]; omega
  simp only [fMag, e1, e2]

theorem fRound_lt (n : Nat) : fRound n < 2147483648 := by
  unfold fRound
  split
  · omega
  · have := Nat.min_le_right ((n.log2 - 23) * 8388608 + rne n (n.log2 - 23)) 2139095040
    omega

theorem fVal_pos (x : W32) (h : x.toNat < 2147483648) : fVal x = fMag x := by unfold fVal; rw [if_pos h]
theorem fVal_neg (x : W32) (h : ¬ x.toNat < 2147483648) : fVal x = -fMag x := by unfold fVal; rw [if_neg h]

theorem fVal_abs (x : W32) : (fVal x).natAbs = fMag x := by
  unfold fVal; split <;> omega

/-- Adding finite numbers that are multiples of a power of two, with a sum that is not too large, is exact. -/
theorem ieeeAdd_signed (k : Nat) (hk : k ≤ 253) (x y : W32) (hx : finite x) (hy : finite y) (dx : (2 ^ k : Int) ∣ fVal x) (dy : (2 ^ k : Int) ∣ fVal y)
    (hs : (fVal x + fVal y).natAbs < 2 ^ (24 + k)) : fVal (ieeeAdd x y) = fVal x + fVal y ∧ finite (ieeeAdd x y) := by
  unfold finite at hx hy
  have n1 : fNaN x = false := by unfold fNaN; simp; omega
  have n2 : fNaN y = false := by unfold fNaN; simp; omega
  have i1 : fInf x = false := by unfold fInf; simp; omega
  have i2 : fInf y = false := by unfold fInf; simp; omega
  have hd : 2 ^ k ∣ (fVal x + fVal y).natAbs := by
    have := Int.dvd_add dx dy
    have := Int.natAbs_dvd_natAbs.2 this
    rwa [show ((2 : Int) ^ k).natAbs = 2 ^ k by rw [Int.natAbs_pow]; rfl] at this
  obtain ⟨e1, e2⟩ := fRound_exact _ k hk hd hs
  have hlt := fRound_lt (fVal x + fVal y).natAbs
  have p0 := pack32_toNat _ hlt
  have p1 := pack32_sign 1 _ (by omega) hlt
  have f1 := fMag_sign _ hlt
  unfold nonNegative at e2
  unfold ieeeAdd
  simp only [n1, n2, i1, i2, Bool.or_self, Bool.false_eq_true, ↓reduceIte]
  split
  · refine ⟨?_, by unfold finite; omega⟩
    rw [fVal_pos _ (by omega), e1]; omega
  · split
    · refine ⟨?_, by unfold finite; omega⟩
      rw [fVal_neg _ (by omega), f1, e1]; omega
    · have h0 : fVal x + fVal y = 0 := by omega
      rw [h0]
      split
      · exact ⟨by decide, by unfold finite; decide⟩
      · exact ⟨by decide, by unfold finite; decide⟩

theorem addToParticle_signed (k : Nat) (hk : k ≤ 253) (p : Nat) (en : W32) (hen : finite en) (hd : (2 ^ k : Int) ∣ fVal en) (cs : List SimCont)
    (hc : ∀ c ∈ cs, finite c.energy ∧ (2 ^ k : Int) ∣ fVal c.energy) (hs : (cs.map fun c => fMag c.energy).sum + fMag en < 2 ^ (24 + k))
    (cs' : List SimCont) (h : addToParticle ieeeAdd p en cs = some cs') :
    (∀ c ∈ cs', finite c.energy ∧ (2 ^ k : Int) ∣ fVal c.energy) ∧ (cs'.map fun c => fVal c.energy).sum = (cs.map fun c => fVal c.energy).sum + fVal en ∧
    (cs'.map fun c => fMag c.energy).sum ≤ (cs.map fun c => fMag c.energy).sum + fMag en := by
  induction cs generalizing cs' with
  | nil => cases h
  | cons c cs ih =>
    rw [List.map_cons, List.sum_cons] at hs
    obtain ⟨c1, c2⟩ := hc c List.mem_cons_self
    rw [addToParticle] at h
    split at h
    · injection h with h
      subst h
      have a1 := fVal_abs c.energy
      have a2 := fVal_abs en
      obtain ⟨e1, e2⟩ := ieeeAdd_signed k hk c.energy en c1 hen c2 hd (by omega)
      have a3 := fVal_abs (ieeeAdd c.energy en)
      refine ⟨?_, ?_, ?_⟩
      · intro d hd'
        rcases List.mem_cons.1 hd' with rfl | hd'
        · exact ⟨e2, by simp only [e1]; exact Int.dvd_add c2 hd⟩
        · exact hc d (List.mem_cons_of_mem _ hd')
      · simp only [List.map_cons, List.sum_cons, e1]; omega
      · simp only [List.map_cons, List.sum_cons]; omega
    · obtain ⟨t, ht, rfl⟩ := Option.map_eq_some_iff.1 h
      obtain ⟨i1, i2, i3⟩ := ih (fun d hd' => hc d (List.mem_cons_of_mem _ hd')) (by omega) t ht
      refine ⟨?_, ?_, ?_⟩
      · intro d hd'
        rcases List.mem_cons.1 hd' with rfl | hd'
        · exact ⟨c1, c2⟩
        · exact i1 d hd'
      · simp only [List.map_cons, List.sum_cons, i2]; omega
      · simp only [List.map_cons, List.sum_cons]; omega

end Lcio
