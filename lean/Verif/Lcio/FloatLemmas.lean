import Verif.Lcio.Float
/-
Conversions between `float` and `double`.
-/
namespace Lcio
open Sio

theorem pack64_toNat (s e m : Nat) (hs : s < 2) (he : e < 2048) (hm : m < 4503599627370496) :
    (pack64 s e m).toNat = s * 9223372036854775808 + e * 4503599627370496 + m := by
  unfold pack64
  rw [BitVec.toNat_ofNat]
  apply Nat.mod_eq_of_lt
  have : (2:Nat) ^ 64 = 18446744073709551616 := by decide
  rw [this]
  omega

theorem rne_exact (q sh : Nat) (_ : 0 < sh) : rne (q * 2 ^ sh) sh = q := by
  unfold rne
  have hp : 0 < 2 ^ sh := Nat.pow_pos (by decide)
  have hp' : 0 < 2 ^ (sh - 1) := Nat.pow_pos (by decide)
  rw [Nat.mul_mod_left, Nat.mul_div_cancel _ hp, if_neg]
  omega

theorem pack32_eq (x : W32) (s r : Nat) (h : x.toNat = s * 2147483648 + r) : pack32 s r = x := by
  unfold pack32
  rw [← h, BitVec.ofNat_toNat, BitVec.setWidth_eq]

/-- A quiet bit pattern: not a signalling NaN. -/
def quiet (x : W32) : Prop := fNaN x = true → x.toNat / 4194304 % 2 = 1

theorem narrow_pack (s e m : Nat) (hs : s < 2) (he : e < 2048) (hm : m < 4503599627370496) :
    ieeeNarrow (pack64 s e m) =
      if e = 2047 then pack32 s (2139095040 + if m = 0 then 0 else m / 536870912 % 4194304 + 4194304)
      else if e < 897 then pack32 s (rne (if e = 0 then m else 4503599627370496 + m) (29 + (897 - max e 1)))
      else pack32 s (min ((e - 897) * 8388608 + rne (4503599627370496 + m) 29) 2139095040) := by
  unfold ieeeNarrow
  simp only [pack64_toNat s e m hs he hm]
  have h1 : (s * 9223372036854775808 + e * 4503599627370496 + m) / 9223372036854775808 = s := by omega
  have h2 : (s * 9223372036854775808 + e * 4503599627370496 + m) / 4503599627370496 % 2048 = e := by omega
  have h3 : (s * 9223372036854775808 + e * 4503599627370496 + m) % 4503599627370496 = m := by omega
  rw [h1, h2, h3]

theorem narrow_widen (x : W32) (hq : quiet x) : ieeeNarrow (ieeeWiden x) = x := by
  have hx : x.toNat < 4294967296 := x.isLt
  have hs : x.toNat / 2147483648 < 2 := by omega
  have he : x.toNat / 8388608 % 256 < 256 := by omega
  have hm : x.toNat % 8388608 < 8388608 := by omega
  have hsplit : x.toNat = x.toNat / 2147483648 * 2147483648 + (x.toNat / 8388608 % 256 * 8388608 + x.toNat % 8388608) := by omega
  unfold quiet fNaN at hq
  rw [decide_eq_true_eq] at hq
  have hmod : x.toNat % 2147483648 = x.toNat / 8388608 % 256 * 8388608 + x.toNat % 8388608 := by omega
  have hqb : x.toNat / 4194304 % 2 = x.toNat % 8388608 / 4194304 := by omega
  rw [hmod, hqb] at hq
  unfold ieeeWiden
  simp only
  generalize x.toNat / 2147483648 = s at *
  generalize x.toNat / 8388608 % 256 = e at *
  generalize x.toNat % 8388608 = m at *
  clear hmod hqb
  by_cases h1 : e = 255
  · rw [if_pos h1]
    subst h1
    by_cases h2 : m = 0
    · rw [if_pos h2, narrow_pack s 2047 0 hs (by decide) (by decide), if_pos rfl, if_pos rfl]
      exact pack32_eq x _ _ (by omega)
    · have hb : (m % 4194304 * 536870912 + 2251799813685248) < 4503599627370496 := by clear hsplit hq; omega
      have h0 : (m % 4194304 * 536870912 + 2251799813685248) ≠ 0 := by clear hsplit hq; omega
      rw [if_neg h2, narrow_pack s 2047 _ hs (by decide) hb, if_pos rfl, if_neg h0]
      have h3 := hq (by omega)
      have h4 : (m % 4194304 * 536870912 + 2251799813685248) / 536870912 = m % 4194304 + 4194304 := by clear hsplit hq; omega
      rw [h4]
      exact pack32_eq x _ _ (by omega)
  · rw [if_neg h1]
    by_cases h2 : e = 0
    · rw [if_pos h2]
      subst h2
      by_cases h3 : m = 0
      · rw [if_pos h3, narrow_pack s 0 0 hs (by decide) (by decide), if_neg (by decide), if_pos (by decide), if_pos rfl]
        have : rne 0 (29 + (897 - max 0 1)) = 0 := by
          have := rne_exact 0 (29 + (897 - max 0 1)) (by decide)
          rwa [Nat.zero_mul] at this
        rw [this]
        refine pack32_eq x _ _ ?_
        rw [hsplit, h3]
      · rw [if_neg h3]
        have hle : 2 ^ m.log2 ≤ m := Nat.log2_self_le h3
        have hlt : m < 2 ^ (m.log2 + 1) := Nat.lt_log2_self
        have hk : m.log2 < 23 := by
          have : m < 2 ^ 23 := by
            have : (2:Nat) ^ 23 = 8388608 := by decide
            omega
          exact (Nat.log2_lt h3).2 this
        have hfrac : (m - 2 ^ m.log2) * 2 ^ (52 - m.log2) < 4503599627370496 := by
          have h5 : m - 2 ^ m.log2 < 2 ^ m.log2 := by rw [Nat.pow_succ] at hlt; omega
          have h6 : 2 ^ m.log2 * 2 ^ (52 - m.log2) = 4503599627370496 := by
            rw [← Nat.pow_add, Nat.add_sub_of_le (by omega)]
          rw [← h6]
          exact Nat.mul_lt_mul_of_pos_right h5 (Nat.pow_pos (by decide))
        have hfull : 4503599627370496 + (m - 2 ^ m.log2) * 2 ^ (52 - m.log2) = m * 2 ^ (52 - m.log2) := by
          have h6 : 2 ^ m.log2 * 2 ^ (52 - m.log2) = 4503599627370496 := by
            rw [← Nat.pow_add, Nat.add_sub_of_le (by omega)]
          rw [Nat.sub_mul, h6]
          have : 4503599627370496 ≤ m * 2 ^ (52 - m.log2) := by
            rw [← h6]; exact Nat.mul_le_mul_right _ hle
          omega
        rw [narrow_pack s _ _ hs (by omega) hfrac, if_neg (by omega), if_pos (by omega), if_neg (by omega), hfull]
        have h7 : 29 + (897 - max (m.log2 + 874) 1) = 52 - m.log2 := by omega
        rw [h7, rne_exact _ _ (by omega)]
        exact pack32_eq x _ _ (by omega)
    · rw [if_neg h2, narrow_pack s _ _ hs (by omega) (by omega), if_neg (by omega), if_neg (by omega)]
      have h3 : 4503599627370496 + m * 536870912 = (8388608 + m) * 2 ^ 29 := by
        have : (2:Nat) ^ 29 = 536870912 := by decide
        rw [this]; omega
      rw [h3, rne_exact _ _ (by decide)]
      exact pack32_eq x _ _ (by omega)

theorem narrow_quiet (x : W64) : quiet (ieeeNarrow x) := by
  have hr : ∀ s r, s < 2 → r ≤ 2139095040 → quiet (pack32 s r) := by
    intro s r hs hr hn
    exfalso
    unfold fNaN pack32 at hn
    rw [decide_eq_true_eq, BitVec.toNat_ofNat] at hn
    have : (2:Nat) ^ 32 = 4294967296 := by decide
    rw [this] at hn
    omega
  have hx : x.toNat < 18446744073709551616 := x.isLt
  have hs : x.toNat / 9223372036854775808 < 2 := by omega
  have he : x.toNat / 4503599627370496 % 2048 < 2048 := by omega
  have hm : x.toNat % 4503599627370496 < 4503599627370496 := by omega
  unfold ieeeNarrow
  simp only
  generalize x.toNat / 9223372036854775808 = s at *
  generalize x.toNat / 4503599627370496 % 2048 = e at *
  generalize x.toNat % 4503599627370496 = m at *
  split
  · split
    · exact hr _ _ hs (by omega)
    · intro _
      unfold pack32
      rw [BitVec.toNat_ofNat]
      have : (2:Nat) ^ 32 = 4294967296 := by decide
      rw [this]
      omega
  · split
    · apply hr _ _ hs
      have hM : (if e = 0 then m else 4503599627370496 + m) < 9007199254740992 := by split <;> omega
      generalize (if e = 0 then m else 4503599627370496 + m) = M at hM
      have hq : M / 2 ^ (29 + (897 - max e 1)) ≤ M / 2 ^ 29 :=
        Nat.div_le_div_left (Nat.pow_le_pow_right (by decide) (by omega)) (Nat.pow_pos (by decide))
      have h29 : M / 2 ^ 29 ≤ 16777215 := by
        have : (2:Nat) ^ 29 = 536870912 := by decide
        rw [this]; omega
      unfold rne
      split <;> omega
    · exact hr _ _ hs (by omega)

theorem viaFloat_twice (x : W64) : ieeeWiden (ieeeNarrow (ieeeWiden (ieeeNarrow x))) = ieeeWiden (ieeeNarrow x) := by
  rw [narrow_widen _ (narrow_quiet x)]

end Lcio
