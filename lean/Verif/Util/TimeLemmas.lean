import Verif.Util.Time
import Verif.Spec.Calendar
/-
Lemmas about the calendar.
-/
namespace Util
open Spec

theorem isLeapYear_iff (y : Int) : isLeapYear y = true ↔ Leap y := by
  unfold isLeapYear Leap
  rw [Bool.or_eq_true, Bool.and_eq_true, beq_iff_eq, beq_iff_eq, bne_iff_ne, ← Int.dvd_iff_tmod_eq_zero, ← Int.dvd_iff_tmod_eq_zero, ne_eq,
    ← Int.dvd_iff_tmod_eq_zero]
  omega

theorem daysInYear_eq (y : Int) : daysInYear y = if Leap y then 366 else 365 := by
  unfold daysInYear
  by_cases h : Leap y
  · rw [if_pos h, if_pos ((isLeapYear_iff y).2 h)]; rfl
  · rw [if_neg h, if_neg (fun e => h ((isLeapYear_iff y).1 e))]

theorem daysInYear_pos (y : Int) : 365 ≤ daysInYear y ∧ daysInYear y ≤ 366 := by
  rw [daysInYear_eq]; split <;> omega

theorem daysInMonth_eq (m y : Int) (h : 1 ≤ m ∧ m ≤ 12) : daysInMonth m y = monthLength y m := by
  unfold daysInMonth monthLength
  rw [if_neg (by omega)]
  have hl := isLeapYear_iff y
  rcases (by omega : m = 1 ∨ m = 2 ∨ m = 3 ∨ m = 4 ∨ m = 5 ∨ m = 6 ∨ m = 7 ∨ m = 8 ∨ m = 9 ∨ m = 10 ∨ m = 11 ∨ m = 12)
    with rfl | rfl | rfl | rfl | rfl | rfl | rfl | rfl | rfl | rfl | rfl | rfl <;> simp [dpm, hl]

theorem monthLength_bounds (y m : Int) : 28 ≤ monthLength y m ∧ monthLength y m ≤ 31 := by
  unfold monthLength; split
  · omega
  · split
    · split <;> omega
    · omega

theorem next_in_month (y m : Int) (k : Nat) (h : (k : Int) < monthLength y m) : Day.next^[k] ⟨y, m, 1⟩ = ⟨y, m, 1 + k⟩ := by
  induction k with
  | zero => rfl
  | succ k ih =>
    rw [Function.iterate_succ_apply', ih (by omega)]
    unfold Day.next
    rw [if_pos (by simp only; omega)]
    simp only [Day.mk.injEq, true_and]; omega

theorem next_month (y m : Int) (h : m < 12) : Day.next^[(monthLength y m).toNat] ⟨y, m, 1⟩ = ⟨y, m + 1, 1⟩ := by
  have hb := monthLength_bounds y m
  obtain ⟨k, hk⟩ : ∃ k : Nat, monthLength y m = k + 1 := ⟨(monthLength y m).toNat - 1, by omega⟩
  rw [hk, show ((k : Int) + 1).toNat = k + 1 by omega, Function.iterate_succ_apply', next_in_month y m k (by omega)]
  unfold Day.next
  rw [if_neg (by simp only; omega), if_pos h]

theorem next_year_end (y : Int) : Day.next^[(monthLength y 12).toNat] ⟨y, 12, 1⟩ = ⟨y + 1, 1, 1⟩ := by
  have hb := monthLength_bounds y 12
  obtain ⟨k, hk⟩ : ∃ k : Nat, monthLength y 12 = k + 1 := ⟨(monthLength y 12).toNat - 1, by omega⟩
  rw [hk, show ((k : Int) + 1).toNat = k + 1 by omega, Function.iterate_succ_apply', next_in_month y 12 k (by omega)]
  unfold Day.next
  rw [if_neg (by simp only; omega), if_neg (by simp only; omega)]

/-- The days of the months before month `1 + k`. -/
def monthsBefore (y : Int) : Nat → Int
  | 0 => 0
  | k + 1 => monthsBefore y k + monthLength y (1 + k)

theorem monthsBefore_nonneg (y : Int) (k : Nat) : 0 ≤ monthsBefore y k ∧ monthsBefore y k ≤ 31 * k := by
  induction k with
  | zero => exact ⟨Int.le_refl _, Int.le_refl _⟩
  | succ k ih => rw [monthsBefore]; have := monthLength_bounds y (1 + k); omega

theorem next_months (y : Int) (k : Nat) (h : k < 12) : Day.next^[(monthsBefore y k).toNat] ⟨y, 1, 1⟩ = ⟨y, 1 + k, 1⟩ := by
  induction k with
  | zero => rfl
  | succ k ih =>
    have h1 := monthsBefore_nonneg y k
    have h2 := monthLength_bounds y (1 + k)
    rw [monthsBefore, show (monthsBefore y k + monthLength y (1 + k)).toNat = (monthLength y (1 + k)).toNat + (monthsBefore y k).toNat by omega,
      Function.iterate_add_apply, ih (by omega), next_month y (1 + k) (by omega)]
    simp only [Day.mk.injEq, true_and, and_true]; omega

theorem year_months (y : Int) : monthsBefore y 12 = daysInYear y := by
  rw [daysInYear_eq]
  simp only [monthsBefore, monthLength]
  by_cases h : Leap y <;> simp [h]

theorem next_year (y : Int) : Day.next^[(daysInYear y).toNat] ⟨y, 1, 1⟩ = ⟨y + 1, 1, 1⟩ := by
  have h1 := monthsBefore_nonneg y 11
  have h2 := monthLength_bounds y 12
  rw [← year_months, monthsBefore, show (1 : Int) + ((11 : Nat) : Int) = 12 by omega,
    show (monthsBefore y 11 + monthLength y 12).toNat = (monthLength y 12).toNat + (monthsBefore y 11).toNat by omega,
    Function.iterate_add_apply, next_months y 11 (by omega)]
  exact next_year_end y

theorem toShort_id (x : Int) (h : -32768 ≤ x ∧ x < 32768) : toShort x = x := by unfold toShort; omega
theorem toInt_id (x : Int) (h : -2147483648 ≤ x ∧ x < 2147483648) : toInt x = x := by unfold toInt; omega
theorem toUnsigned_id (x : Int) (h : 0 ≤ x ∧ x < 4294967296) : toUnsigned x = x := by unfold toUnsigned; omega

theorem yearLoop_eq (fuel : Nat) : ∀ (j : Nat) (y n : Int), 0 ≤ n → n < 365 * j → j ≤ fuel → 0 ≤ y → y + j < 32768 →
    ∃ y' n', yearLoop fuel y n = some (y', n') ∧ y ≤ y' ∧ y' < y + j ∧ 0 ≤ n' ∧ n' < daysInYear y' ∧
      Day.next^[n.toNat] ⟨y, 1, 1⟩ = Day.next^[n'.toNat] ⟨y', 1, 1⟩ := by
  induction fuel with
  | zero => intro j y n h1 h2 h3; omega
  | succ fuel ih =>
    intro j y n h1 h2 h3 h4 h5
    have hd := daysInYear_pos y
    rw [yearLoop]
    by_cases h : n - daysInYear y ≥ 0
    · rw [if_pos h, toShort_id _ (by omega)]
      obtain ⟨y', n', e1, e2, e3, e4, e5, e6⟩ := ih (j - 1) (y + 1) (n - daysInYear y) h (by omega) (by omega) (by omega) (by omega)
      refine ⟨y', n', e1, by omega, by omega, e4, e5, ?_⟩
      rw [← e6, ← next_year y, ← Function.iterate_add_apply]
      congr 1; omega
    · rw [if_neg h]
      exact ⟨y, n, rfl, by omega, by omega, h1, by omega, rfl⟩

theorem monthLoop_eq (y : Int) (fuel : Nat) : ∀ (k : Nat) (n : Int), k < 12 → 12 - k ≤ fuel → 0 ≤ n → n + monthsBefore y k < monthsBefore y 12 →
    ∃ m' n', monthLoop y fuel (1 + k) n = some (m', n') ∧ 1 ≤ m' ∧ m' ≤ 12 ∧ 0 ≤ n' ∧ n' < monthLength y m' ∧
      Day.next^[n.toNat] ⟨y, 1 + k, 1⟩ = ⟨y, m', 1 + n'⟩ := by
  induction fuel with
  | zero => intro k n h1 h2; omega
  | succ fuel ih =>
    intro k n h1 h2 h3 h4
    have hb := monthLength_bounds y (1 + k)
    rw [monthLoop, daysInMonth_eq _ _ (by omega)]
    by_cases h : n - monthLength y (1 + k) ≥ 0
    · rw [if_pos h, toShort_id _ (by omega)]
      have hk : k + 1 < 12 := by
        rcases Nat.lt_or_ge (k + 1) 12 with hh | hh
        · exact hh
        · obtain rfl : k = 11 := by omega
          rw [show monthsBefore y 12 = monthsBefore y 11 + monthLength y (1 + (11 : Nat)) from rfl] at h4
          omega
      obtain ⟨m', n', e1, e2, e3, e4, e5, e6⟩ := ih (k + 1) (n - monthLength y (1 + k)) hk (by omega) h (by rw [monthsBefore]; omega)
      refine ⟨m', n', ?_, e2, e3, e4, e5, ?_⟩
      · rw [← e1]; congr 1
      · rw [← e6, show (1 : Int) + ((k + 1 : Nat) : Int) = 1 + k + 1 by omega, ← next_month y (1 + k) (by omega), ← Function.iterate_add_apply]
        congr 1; omega
    · rw [if_neg h]
      refine ⟨1 + k, n, rfl, by omega, by omega, h3, by omega, ?_⟩
      rw [next_in_month y (1 + k) n.toNat (by omega)]
      simp only [Day.mk.injEq, true_and]; omega

/-- The result of `convertToCalTime`. -/
theorem toCal (fuel : Nat) (hf : 300 ≤ fuel) (t : Int) (h0 : 0 ≤ t) (ht : t < 9223372036854775808) :
    ∃ c, convertToCalTime fuel t = some { t := t, d := c } ∧
      (⟨c.year, c.month, c.day⟩ : Day) = Day.next^[(t / 86400000000000).toNat] epoch ∧
      Day.Valid ⟨c.year, c.month, c.day⟩ ∧ c.year < 2270 ∧ ValidTime c.hour c.min c.sec ∧ 0 ≤ c.ns ∧ c.ns < 1000000000 ∧
      t % 86400000000000 = secondOfDay c.hour c.min c.sec * 1000000000 + c.ns := by
  unfold convertToCalTime
  rw [if_neg (by omega)]
  have d1 : t.tdiv 1000000000 = t / 1000000000 := Int.tdiv_eq_ediv_of_nonneg h0
  have d2 : t.tmod 1000000000 = t % 1000000000 := Int.tmod_eq_emod_of_nonneg h0
  have hs0 : 0 ≤ t / 1000000000 := by omega
  have d3 : (t / 1000000000).tdiv 86400 = t / 1000000000 / 86400 := Int.tdiv_eq_ediv_of_nonneg hs0
  have d4 : (t / 1000000000).tmod 86400 = t / 1000000000 % 86400 := Int.tmod_eq_emod_of_nonneg hs0
  have hs1 : 0 ≤ t / 1000000000 % 86400 := by omega
  have d5 : (t / 1000000000 % 86400).tmod 3600 = t / 1000000000 % 86400 % 3600 := Int.tmod_eq_emod_of_nonneg hs1
  have d6 : (t / 1000000000 % 86400).tdiv 3600 = t / 1000000000 % 86400 / 3600 := Int.tdiv_eq_ediv_of_nonneg hs1
  have hs2 : 0 ≤ t / 1000000000 % 86400 % 3600 := by omega
  have d7 : (t / 1000000000 % 86400 % 3600).tdiv 60 = t / 1000000000 % 86400 % 3600 / 60 := Int.tdiv_eq_ediv_of_nonneg hs2
  have d8 : (t / 1000000000 % 86400 % 3600).tmod 60 = t / 1000000000 % 86400 % 3600 % 60 := Int.tmod_eq_emod_of_nonneg hs2
  simp only [d1, d2, d3, d4, d5, d6, d7, d8]
  rw [toInt_id (t / 1000000000 / 86400) (by omega), toInt_id _ (by omega)]
  obtain ⟨y, n, e1, e2, e3, e4, e5, e6⟩ := yearLoop_eq fuel 300 1970 (t / 1000000000 / 86400) (by omega) (by omega) hf (by omega) (by omega)
  rw [e1]
  obtain ⟨m, n', f1, f2, f3, f4, f5, f6⟩ := monthLoop_eq y fuel 0 n (by omega) (by omega) e4 (by rw [year_months, monthsBefore]; omega)
  have hb := monthLength_bounds y m
  rw [show (1 : Int) + ((0 : Nat) : Int) = 1 by omega] at f1 f6
  simp only [f1]
  refine ⟨_, rfl, ?_, ?_, ?_, ?_, ?_, ?_, ?_⟩
  · simp only [toShort_id (1 + n') (by omega)]
    rw [← f6, ← e6, epoch]
    congr 1; omega
  · simp only [toShort_id (1 + n') (by omega)]
    exact ⟨e2, f2, f3, by simp only; omega, by simp only; omega⟩
  · simp only; omega
  · simp only [toShort, ValidTime]; omega
  · simp only; omega
  · simp only; omega
  · simp only [toShort, secondOfDay]; omega

/-- The days of the years before `1970 + k`. -/
def yearsBefore : Nat → Int
  | 0 => 0
  | k + 1 => yearsBefore k + daysInYear (1970 + k)

theorem yearsBefore_bounds (k : Nat) : 365 * k ≤ yearsBefore k ∧ yearsBefore k ≤ 366 * k := by
  induction k with
  | zero => exact ⟨Int.le_refl _, Int.le_refl _⟩
  | succ k ih => rw [yearsBefore]; have := daysInYear_pos (1970 + k); omega

theorem next_years (k : Nat) : Day.next^[(yearsBefore k).toNat] epoch = ⟨1970 + k, 1, 1⟩ := by
  induction k with
  | zero => rfl
  | succ k ih =>
    have h1 := yearsBefore_bounds k
    have h2 := daysInYear_pos (1970 + k)
    rw [yearsBefore, show (yearsBefore k + daysInYear (1970 + k)).toNat = (daysInYear (1970 + k)).toNat + (yearsBefore k).toNat by omega,
      Function.iterate_add_apply, ih, next_year]
    simp only [Day.mk.injEq, and_true]; omega

theorem addYears_eq (k : Nat) (h : k < 40000) : addYears k = yearsBefore k := by
  induction k with
  | zero => rfl
  | succ k ih =>
    have h1 := yearsBefore_bounds k
    have h2 := daysInYear_pos (1970 + k)
    rw [addYears, yearsBefore, ih (by omega), toUnsigned_id _ (by omega)]

theorem addMonths_eq (y n : Int) (hn : 0 ≤ n ∧ n < 20000000) (k : Nat) (h : k < 12) : addMonths y n k = n + monthsBefore y k := by
  induction k with
  | zero => rw [addMonths, monthsBefore]; omega
  | succ k ih =>
    have h1 := monthsBefore_nonneg y k
    have h2 := monthLength_bounds y (1 + k)
    rw [addMonths, monthsBefore, ih (by omega), daysInMonth_eq _ _ (by omega), toUnsigned_id _ (by omega)]
    omega

/-- The days before a date. -/
def daysBefore (d : Day) : Int := yearsBefore (d.year - 1970).toNat + monthsBefore d.year (d.month - 1).toNat + (d.day - 1)

theorem daysBefore_next (d : Day) (h : d.Valid) : 0 ≤ daysBefore d ∧ Day.next^[(daysBefore d).toNat] epoch = d := by
  obtain ⟨h1, h2, h3, h4, h5⟩ := h
  have b1 := yearsBefore_bounds (d.year - 1970).toNat
  have b2 := monthsBefore_nonneg d.year (d.month - 1).toNat
  have hy := next_years (d.year - 1970).toNat
  have hm := next_months d.year (d.month - 1).toNat (by omega)
  have hd := next_in_month d.year d.month (d.day - 1).toNat (by omega)
  refine ⟨by unfold daysBefore; omega, ?_⟩
  unfold daysBefore
  rw [show (yearsBefore (d.year - 1970).toNat + monthsBefore d.year (d.month - 1).toNat + (d.day - 1)).toNat =
    (d.day - 1).toNat + ((monthsBefore d.year (d.month - 1).toNat).toNat + (yearsBefore (d.year - 1970).toNat).toNat) by omega,
    Function.iterate_add_apply, Function.iterate_add_apply, hy, show (1970 : Int) + ((d.year - 1970).toNat : Int) = d.year by omega, hm,
    show (1 : Int) + ((d.month - 1).toNat : Int) = d.month by omega, hd]
  cases d; simp only [Day.mk.injEq, true_and]; simp only at h4; omega

/-- A number that grows from one day to the next. -/
def rank (d : Day) : Int := (d.year * 12 + (d.month - 1)) * 31 + (d.day - 1)

theorem next_valid (d : Day) (h : d.Valid) : d.next.Valid ∧ rank d < rank d.next := by
  obtain ⟨h1, h2, h3, h4, h5⟩ := h
  have hb := monthLength_bounds d.year d.month
  unfold Day.next
  split
  · refine ⟨⟨h1, h2, h3, ?_, ?_⟩, ?_⟩ <;> (simp only [rank]; omega)
  · split
    · have := monthLength_bounds d.year (d.month + 1)
      refine ⟨⟨h1, ?_, ?_, ?_, ?_⟩, ?_⟩ <;> (simp only [rank]; omega)
    · have := monthLength_bounds (d.year + 1) 1
      refine ⟨⟨?_, ?_, ?_, ?_, ?_⟩, ?_⟩ <;> (simp only [rank]; omega)

theorem epoch_valid : epoch.Valid := by
  unfold Day.Valid; decide

theorem iterate_valid (n : Nat) : (Day.next^[n] epoch).Valid := by
  induction n with
  | zero => exact epoch_valid
  | succ n ih => rw [Function.iterate_succ_apply']; exact (next_valid _ ih).1

theorem rank_mono {a b : Nat} (h : a < b) : rank (Day.next^[a] epoch) < rank (Day.next^[b] epoch) := by
  induction b with
  | zero => omega
  | succ b ih =>
    have := (next_valid _ (iterate_valid b)).2
    rw [Function.iterate_succ_apply']
    rcases Nat.lt_or_ge a b with hh | hh
    · exact Int.lt_trans (ih hh) this
    · obtain rfl : a = b := by omega
      exact this

theorem iterate_inj {a b : Nat} (h : Day.next^[a] epoch = Day.next^[b] epoch) : a = b := by
  rcases Nat.lt_trichotomy a b with hh | hh | hh
  · have := rank_mono hh; rw [h] at this; omega
  · exact hh
  · have := rank_mono hh; rw [h] at this; omega

theorem daysBefore_iterate (n : Nat) : daysBefore (Day.next^[n] epoch) = n := by
  obtain ⟨h1, h2⟩ := daysBefore_next _ (iterate_valid n)
  have := iterate_inj h2
  omega

/-- Later days have more days before them. -/
theorem daysBefore_lt (a b : Day) (ha : a.Valid) (hb : b.Valid) : daysBefore a < daysBefore b ↔ rank a < rank b := by
  obtain ⟨a1, a2⟩ := daysBefore_next a ha
  obtain ⟨b1, b2⟩ := daysBefore_next b hb
  constructor
  · intro h
    have := rank_mono (a := (daysBefore a).toNat) (b := (daysBefore b).toNat) (by omega)
    rwa [a2, b2] at this
  · intro h
    rcases Int.lt_trichotomy (daysBefore a) (daysBefore b) with hh | hh | hh
    · exact hh
    · rw [← a2, ← b2, hh] at h; omega
    · have := rank_mono (a := (daysBefore b).toNat) (b := (daysBefore a).toNat) (by omega)
      rw [a2, b2] at this; omega

/-- The result of the constructor with a valid date. -/
theorem fromCal (fuel : Nat) (d : Day) (hd : d.Valid) (h m s : Int) (ht : ValidTime h m s)
    (hs : daysBefore d * 86400 + secondOfDay h m s < 4294967296) :
    ofDate fuel d.year d.month d.day h m s = .ok (some
      { t := (daysBefore d * 86400 + secondOfDay h m s) * 1000000000,
        d := { year := d.year, month := d.month, day := d.day, hour := h, min := m, sec := s, ns := 0 } }) := by
  obtain ⟨h1, h2, h3, h4, h5⟩ := hd
  obtain ⟨t1, t2, t3, t4, t5, t6⟩ := ht
  have b1 := yearsBefore_bounds (d.year - 1970).toNat
  have b2 := monthsBefore_nonneg d.year (d.month - 1).toNat
  have b3 := monthLength_bounds d.year d.month
  unfold secondOfDay at hs ⊢
  unfold daysBefore at hs ⊢
  have hy : d.year < 2200 := by omega
  unfold ofDate
  rw [daysInMonth_eq _ _ ⟨h2, h3⟩, if_neg (by omega), toShort_id _ (by omega), toShort_id _ (by omega), toShort_id _ (by omega), toShort_id _ (by omega),
    toShort_id _ (by omega), toShort_id _ (by omega)]
  unfold convertFromCalTime
  simp only
  rw [if_neg (by omega), addYears_eq _ (by omega), addMonths_eq _ _ (by omega) _ (by omega), toUnsigned_id (_ + (d.day - 1)) (by omega), toUnsigned_id _ (by omega)]
  simp only [Except.ok.injEq, Option.some.injEq, LCTime.mk.injEq, and_true]
  omega

end Util
