import Verif.Spec.Charge
/-
C70: the charges of particles read from StdHep files.
-/
namespace Props
open Sio Util Spec

theorem ch100_quark (q : Nat) (h : IsQuark q) : ch100At q = .ok (quark q) := by
  obtain ⟨h1, h2⟩ := h
  have : q = 1 ∨ q = 2 ∨ q = 3 ∨ q = 4 ∨ q = 5 ∨ q = 6 := by omega
  rcases this with rfl | rfl | rfl | rfl | rfl | rfl <;> rfl

theorem ch100At_ok (q : Nat) : (∃ c, ch100At q = .ok c) ↔ 1 ≤ q ∧ q ≤ 100 := by
  unfold ch100At
  by_cases h : q = 0
  · rw [if_pos h]; exact ⟨(fun ⟨_, h⟩ => nomatch h), (fun h => by omega)⟩
  · rw [if_neg h]
    by_cases h' : q ≤ 100
    · rw [List.getElem?_eq_getElem (show q - 1 < ch100.length by show q - 1 < 100; omega)]
      exact ⟨fun _ => ⟨by omega, h'⟩, fun _ => ⟨_, rfl⟩⟩
    · rw [List.getElem?_eq_none (show ch100.length ≤ q - 1 by show 100 ≤ q - 1; omega)]
      exact ⟨(fun ⟨_, h⟩ => nomatch h), (fun h => by omega)⟩

theorem ch100At_digit (q : Nat) (h : q < 10) : (∃ c, ch100At q = .ok c) ↔ q ≠ 0 := by
  rw [ch100At_ok]; omega

theorem threeCharge_nat (n : Nat) : threeCharge n = chargeOf n := by
  unfold threeCharge
  rw [if_neg (by omega), Int.natAbs_natCast]
  cases chargeOf n with
  | error e => rfl
  | ok c =>
    show Except.ok _ = _
    congr 1
    simp only []
    by_cases hc : c = 0
    · rw [if_pos hc, hc]
    · rw [if_neg hc, if_neg (by omega)]

/-- Codes of hadrons and so on, digit by digit. -/
theorem threeCharge_code (h q1 q2 q3 nj : Nat) (hh : h < 1000) (h1 : q1 < 10) (h2 : q2 < 10) (h3 : q3 < 10) (h4 : nj < 10) (h5 : 0 < nj) (h6 : 0 < q1 ∨ 0 < q2) :
    threeCharge (code h q1 q2 q3 nj) =
      if q1 = 0 then if q2 = 3 ∨ q2 = 5 then (do let a ← ch100At q3; let b ← ch100At q2; pure (a - b)) else (do let a ← ch100At q2; let b ← ch100At q3; pure (a - b))
      else if q3 = 0 then (do let a ← ch100At q2; let b ← ch100At q1; pure (a + b))
      else (do let a ← ch100At q3; let b ← ch100At q2; let c ← ch100At q1; pure (a + b + c)) := by
  have d1 : code h q1 q2 q3 nj / 1000 % 10 = q1 := by unfold code; omega
  have d2 : code h q1 q2 q3 nj / 100 % 10 = q2 := by unfold code; omega
  have d3 : code h q1 q2 q3 nj / 10 % 10 = q3 := by unfold code; omega
  have d4 : code h q1 q2 q3 nj % 10 = nj := by unfold code; omega
  have d5 : code h q1 q2 q3 nj / 10000000 = 0 := by unfold code; omega
  have d6 : code h q1 q2 q3 nj / 1000000000 % 10 = 0 := by unfold code; omega
  have d7 : 100 < code h q1 q2 q3 nj := by unfold code; omega
  rw [threeCharge_nat _]
  unfold chargeOf
  simp only [d1, d2, d3, d4, d5, d6]
  have hsid : ¬ (0 < (if 0 = 1 ∧ code h q1 q2 q3 nj / 100000000 % 10 = 0 then 0 else if q2 = 0 ∧ q1 = 0 then code h q1 q2 q3 nj % 10000
      else if code h q1 q2 q3 nj ≤ 102 then code h q1 q2 q3 nj else 0) ∧
      (if 0 = 1 ∧ code h q1 q2 q3 nj / 100000000 % 10 = 0 then 0 else if q2 = 0 ∧ q1 = 0 then code h q1 q2 q3 nj % 10000
      else if code h q1 q2 q3 nj ≤ 102 then code h q1 q2 q3 nj else 0) ≤ 100) := by
    rw [if_neg (by omega), if_neg (by omega)]
    split <;> omega
  rw [if_neg (by omega)]
  rw [if_neg hsid, if_neg (by omega)]

/-- **C70**: antiparticles have the opposite charge. -/
theorem C70_antiparticles (p : Int) (h : p ≠ -2 ^ 31) (h' : p ≠ 2 ^ 31) : threeCharge (-p) = (threeCharge p).map (fun c => -c) := by
  by_cases h0 : p = 0
  · subst h0; decide
  unfold threeCharge
  rw [if_neg (show ¬ -p = -2 ^ 31 by omega), if_neg h, Int.natAbs_neg]
  cases chargeOf p.natAbs with
  | error e => rfl
  | ok c =>
    show Except.ok _ = Except.ok _
    congr 1
    simp only []
    by_cases hc : c = 0
    · rw [if_pos hc, if_pos hc]; rfl
    · rw [if_neg hc, if_neg hc]
      by_cases hp : p < 0
      · rw [if_neg (by omega), if_pos hp]; omega
      · rw [if_pos (by omega), if_neg hp]

/-- **C70**: mesons have the charge of their quark and antiquark, which is a whole number. -/
theorem C70_mesons (h q2 q3 nj : Nat) (hh : h < 1000) (h2 : IsQuark q2) (h3 : IsQuark q3) (h32 : q3 ≤ q2) (h4 : 0 < nj) (h5 : nj < 10) :
    threeCharge (code h 0 q2 q3 nj) = .ok (mesonCharge q2 q3) ∧ ∃ n, mesonCharge q2 q3 = 3 * n := by
  obtain ⟨a1, a2⟩ := h2
  obtain ⟨b1, b2⟩ := h3
  rw [threeCharge_code h 0 q2 q3 nj hh (by omega) (by omega) (by omega) h5 h4 (by omega), if_pos rfl, ch100_quark q2 ⟨a1, a2⟩, ch100_quark q3 ⟨b1, b2⟩]
  constructor
  · show (if q2 = 3 ∨ q2 = 5 then Except.ok (quark q3 - quark q2) else Except.ok (quark q2 - quark q3)) = _
    unfold mesonCharge
    have : q2 = 1 ∨ q2 = 2 ∨ q2 = 3 ∨ q2 = 4 ∨ q2 = 5 ∨ q2 = 6 := by omega
    rcases this with rfl | rfl | rfl | rfl | rfl | rfl <;> simp
    have : q3 = 1 := by omega
    rw [this]
  · unfold mesonCharge quark
    split <;> split <;> first | exact ⟨0, by decide⟩ | exact ⟨1, by decide⟩ | skip
    all_goals (first | omega | (split <;> first | exact ⟨0, by decide⟩ | exact ⟨1, by decide⟩ | omega))

/-- **C70**: baryons have the charge of their three quarks, which is a whole number. -/
theorem C70_baryons (h q1 q2 q3 nj : Nat) (hh : h < 1000) (h1 : IsQuark q1) (h2 : IsQuark q2) (h3 : IsQuark q3) (h4 : 0 < nj) (h5 : nj < 10) :
    threeCharge (code h q1 q2 q3 nj) = .ok (quark q1 + quark q2 + quark q3) ∧ ∃ n, quark q1 + quark q2 + quark q3 = 3 * n := by
  have a := h1; have b := h2; have c := h3
  unfold IsQuark at a b c
  rw [threeCharge_code h q1 q2 q3 nj hh (by omega) (by omega) (by omega) h5 h4 (by omega), if_neg (by omega), if_neg (by omega),
    ch100_quark q1 h1, ch100_quark q2 h2, ch100_quark q3 h3]
  constructor
  · show Except.ok (quark q3 + quark q2 + quark q1) = _
    congr 1; omega
  · unfold quark
    split <;> split <;> split <;> first | exact ⟨-1, rfl⟩ | exact ⟨0, rfl⟩ | exact ⟨1, rfl⟩ | exact ⟨2, rfl⟩

/-- **C70**: diquarks have the charge of their two quarks. -/
theorem C70_diquarks (h q1 q2 nj : Nat) (hh : h < 1000) (h1 : IsQuark q1) (h2 : IsQuark q2) (h4 : 0 < nj) (h5 : nj < 10) :
    threeCharge (code h q1 q2 0 nj) = .ok (quark q1 + quark q2) := by
  have a := h1; have b := h2
  unfold IsQuark at a b
  rw [threeCharge_code h q1 q2 0 nj hh (by omega) (by omega) (by omega) h5 h4 (by omega), if_neg (by omega), if_pos rfl, ch100_quark q1 h1, ch100_quark q2 h2]
  show Except.ok (quark q2 + quark q1) = _
  congr 1; omega

theorem ch100_elementary : ∀ n : Fin 100, ch100At (n.1 + 1) = .ok (elementary (n.1 + 1)) := by decide +kernel

/-- **C70**: elementary particles, and their partners with the same last two digits. -/
theorem C70_elementary (h n : Nat) (hh : h < 1000) (h1 : 1 ≤ n) (h2 : n < 100) (hx : h * 10000 + n ∉ exceptional) :
    threeCharge ((h * 10000 + n : Nat) : Int) = .ok (elementary n) := by
  have hch : ch100At n = .ok (elementary n) := by
    have := ch100_elementary ⟨n - 1, by omega⟩
    simp only [show n - 1 + 1 = n by omega] at this
    exact this
  obtain ⟨ida, hida⟩ : ∃ ida, ida = h * 10000 + n := ⟨_, rfl⟩
  rw [← hida]
  rw [← hida] at hx
  have d1 : ida / 1000 % 10 = 0 := by omega
  have d2 : ida / 100 % 10 = 0 := by omega
  have d5 : ida / 10000000 = 0 := by omega
  have d6 : ida / 1000000000 % 10 = 0 := by omega
  have d7 : ida % 10000 = n := by omega
  rw [threeCharge_nat _]
  unfold chargeOf
  simp only [d1, d2, d5, d6, d7]
  rw [if_neg (by omega)]
  have hsid : (if 0 = 1 ∧ ida / 100000000 % 10 = 0 then 0 else if True ∧ True then n else if ida ≤ 102 then ida else 0) = n := by simp
  rw [hsid, if_pos ⟨h1, by omega⟩, hch]
  simp only [exceptional, List.mem_cons, List.not_mem_nil, or_false, not_or] at hx
  show Except.ok _ = _
  simp only []
  rw [if_neg (by omega), if_neg (by omega), if_neg (by omega), if_neg (by omega)]

/-- **C70**: the exceptions. -/
theorem C70_exceptional : exceptional.map (fun n => threeCharge (n : Nat)) = [.ok 0, .ok 0, .ok 0, .ok 0, .ok 0, .ok 0, .ok 6, .ok 6] := by rfl

/-- **C70**: hadrons with the last digit 0 (K-short, K-long and reggeons) are neutral. -/
theorem C70_without_spin (n : Nat) (h : 0 < n) (h' : n < 1000000) (hq : n / 10 % 100 ≠ 0) : threeCharge ((n * 10 : Nat) : Int) = .ok 0 := by
  rw [threeCharge_nat _]
  by_cases h10 : n = 10
  · subst h10; rfl
  unfold chargeOf
  simp only
  rw [if_neg (show ¬ (n * 10 = 0 ∨ n * 10 / 10000000 > 0) by omega)]
  have hsid : (if n * 10 / 1000000000 % 10 = 1 ∧ n * 10 / 100000000 % 10 = 0 then 0 else if n * 10 / 100 % 10 = 0 ∧ n * 10 / 1000 % 10 = 0 then n * 10 % 10000
      else if n * 10 ≤ 102 then n * 10 else 0) = 0 := by
    rw [if_neg (show ¬ (n * 10 / 1000000000 % 10 = 1 ∧ n * 10 / 100000000 % 10 = 0) by omega), if_neg (show ¬ (n * 10 / 100 % 10 = 0 ∧ n * 10 / 1000 % 10 = 0) by omega),
      if_neg (show ¬ n * 10 ≤ 102 by omega)]
  rw [hsid, if_neg (show ¬ ((0 : Nat) > 0 ∧ 0 ≤ 100) by omega), if_pos (show n * 10 % 10 = 0 by omega)]

/-- Codes of no particle for which the table of charges is used with the digit 0. -/
def Meaningless (n : Nat) : Prop :=
  0 < n ∧ n < 10000000 ∧ n % 10 ≠ 0 ∧ (n / 1000 % 10 = 0 ∧ n / 100 % 10 ≠ 0 ∧ n / 10 % 10 = 0 ∨ n / 1000 % 10 ≠ 0 ∧ n / 100 % 10 = 0)

theorem chargeOf_defined (n : Nat) : (∃ c, chargeOf n = .ok c) ↔ ¬ Meaningless n := by
  have dig : ∀ m, m % 10 < 10 := fun m => Nat.mod_lt _ (by decide)
  by_cases h0 : n = 0 ∨ n / 10000000 > 0
  · unfold chargeOf Meaningless
    simp only
    rw [if_pos h0]
    exact ⟨fun _ => by omega, fun _ => ⟨_, rfl⟩⟩
  by_cases hs : n / 100 % 100 = 0 ∧ n % 100 ≠ 0
  · -- a code in the table
    have d1 : n / 1000 % 10 = 0 := by omega
    have d2 : n / 100 % 10 = 0 := by omega
    have d6 : n / 1000000000 % 10 = 0 := by omega
    unfold chargeOf Meaningless
    simp only [d1, d2, d6]
    rw [if_neg h0]
    have hsid : (if 0 = 1 ∧ n / 100000000 % 10 = 0 then 0 else if True ∧ True then n % 10000 else if n ≤ 102 then n else 0) = n % 10000 := by simp
    rw [hsid, if_pos (by omega)]
    obtain ⟨c, hc⟩ := (ch100At_ok (n % 10000)).2 (by omega)
    rw [hc]
    exact ⟨fun _ => by omega, fun _ => ⟨_, rfl⟩⟩
  by_cases hj : n % 10 = 0
  · unfold Meaningless
    refine ⟨fun _ => by omega, fun _ => ?_⟩
    unfold chargeOf
    simp only
    rw [if_neg h0]
    generalize (if n / 1000000000 % 10 = 1 ∧ n / 100000000 % 10 = 0 then 0 else if n / 100 % 10 = 0 ∧ n / 1000 % 10 = 0 then n % 10000
      else if n ≤ 102 then n else 0) = sid
    by_cases hc : sid > 0 ∧ sid ≤ 100
    · rw [if_pos hc]
      obtain ⟨c, hc⟩ := (ch100At_ok _).2 hc
      rw [hc]; exact ⟨_, rfl⟩
    · rw [if_neg hc, if_pos hj]; exact ⟨_, rfl⟩
  -- hadrons
  have hcode : n = code (n / 10000) (n / 1000 % 10) (n / 100 % 10) (n / 10 % 10) (n % 10) := by unfold code; omega
  have := threeCharge_code (n / 10000) (n / 1000 % 10) (n / 100 % 10) (n / 10 % 10) (n % 10) (by omega) (dig _) (dig _) (dig _) (dig _) (by omega) (by omega)
  rw [← hcode, threeCharge_nat n] at this
  rw [this]
  unfold Meaningless
  have ok := fun m => ch100At_digit (m % 10) (dig m)
  have bad : ∀ m, m % 10 = 0 → ch100At (m % 10) = .error .ub := fun m h => by rw [h]; rfl
  by_cases h1 : n / 1000 % 10 = 0
  · rw [if_pos h1]
    by_cases h3 : n / 10 % 10 = 0
    · rw [bad _ h3]
      have h2 : n / 100 % 10 ≠ 0 := by omega
      obtain ⟨c, hc⟩ := (ok (n / 100)).2 h2
      rw [hc]
      refine ⟨fun ⟨c, h⟩ => ?_, fun h => by omega⟩
      split at h <;> cases h
    · have h2 : n / 100 % 10 ≠ 0 := by omega
      obtain ⟨c, hc⟩ := (ok (n / 100)).2 h2
      obtain ⟨d, hd⟩ := (ok (n / 10)).2 h3
      rw [hc, hd]
      refine ⟨fun _ => by omega, fun _ => ?_⟩
      split
      · exact ⟨_, rfl⟩
      · exact ⟨_, rfl⟩
  · rw [if_neg h1]
    obtain ⟨b, hb⟩ := (ok (n / 1000)).2 h1
    by_cases h2 : n / 100 % 10 = 0
    · rw [bad _ h2]
      refine ⟨fun ⟨c, h⟩ => ?_, fun h => by omega⟩
      split at h
      · cases h
      · cases h3 : ch100At (n / 10 % 10) with
        | error e => rw [h3] at h; cases h
        | ok c => rw [h3] at h; cases h
    · obtain ⟨c, hc⟩ := (ok (n / 100)).2 h2
      rw [hb, hc]
      refine ⟨fun _ => by omega, fun _ => ?_⟩
      split
      · exact ⟨_, rfl⟩
      · rename_i h3
        obtain ⟨d, hd⟩ := (ok (n / 10)).2 h3
        rw [hd]; exact ⟨_, rfl⟩

/-- **C70**: for which codes there is a charge at all. For the others the program reads in front of the table of charges, or negates the smallest integer. -/
theorem C70_defined (p : Int) : (∃ c, threeCharge p = .ok c) ↔ p ≠ -2 ^ 31 ∧ ¬ Meaningless p.natAbs := by
  have hsign : ∀ e : Except Err Int, (∃ c, e.map (fun charge => if charge = 0 then 0 else if p < 0 then -charge else charge) = .ok c) ↔ ∃ c, e = .ok c := by
    intro e
    cases e with
    | error e => exact ⟨(fun ⟨_, h⟩ => nomatch h), (fun ⟨_, h⟩ => nomatch h)⟩
    | ok c => exact ⟨fun _ => ⟨c, rfl⟩, fun _ => ⟨_, rfl⟩⟩
  unfold threeCharge
  by_cases hp : p = -2 ^ 31
  · rw [if_pos hp]; exact ⟨(fun ⟨_, h⟩ => nomatch h), fun h => absurd hp h.1⟩
  rw [if_neg hp, hsign]
  simp only [ne_eq, hp, not_false_eq_true, true_and]
  generalize p.natAbs = n
  exact chargeOf_defined n

/-- **C70 fails** for nuclei: all codes with ten digits have the charge 0. -/
theorem C70_fails_for_nuclei (n : Nat) (h : 1000000000 ≤ n) (h' : n < 2 ^ 31) : threeCharge n = .ok 0 := by
  rw [threeCharge_nat _]
  unfold chargeOf
  simp only
  rw [if_pos (by omega)]

/-- The nucleus of helium, with the charge 2. -/
example : threeCharge 1000020040 = .ok 0 := by rfl

/-- **C70 fails** for hadrons of a gluino and a quark and an antiquark: the charge is not even a whole number. -/
theorem C70_fails_for_gluino_hadrons : threeCharge 1009213 = .ok 1 := by rfl

example : threeCharge 211 = .ok 3 ∧ threeCharge (-321) = .ok (-3) ∧ threeCharge 2212 = .ok 3 ∧ threeCharge 2112 = .ok 0 ∧ threeCharge 1103 = .ok (-2) ∧
    threeCharge (-5122) = .ok 0 ∧ threeCharge 100443 = .ok 0 ∧ threeCharge 10323 = .ok 3 ∧ threeCharge 1000024 = .ok 3 ∧ threeCharge 1000022 = .ok 0 := by
  refine ⟨rfl, rfl, rfl, rfl, rfl, rfl, rfl, rfl, rfl, rfl⟩

example : threeCharge 101 = .error .ub ∧ threeCharge (-501) = .error .ub ∧ threeCharge 1001 = .error .ub ∧ threeCharge 1011 = .error .ub := ⟨rfl, rfl, rfl, rfl⟩

end Props
