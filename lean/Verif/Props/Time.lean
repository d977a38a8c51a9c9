import Verif.Util.TimeLemmas
import Verif.Util.TextLemmas
/-
C52: time stamps and the calendar.

`fuel` bounds the turns of the loops in `convertToCalTime`; the theorems hold for any bound of at least 300, so the loops end.
-/
namespace Props
open Spec Util Sio Lcio

/-- **C52**: the date and time of any time stamp that is not negative: the date is the one reached from the first of January 1970 by going on from day to day as
often as there are whole days in the time stamp; the time is the rest; both are valid; and the time stamp itself is kept. -/
theorem C52_calendar (fuel : Nat) (hf : 300 ≤ fuel) (t : Int) (h0 : 0 ≤ t) (ht : t < 2 ^ 63) :
    ∃ c, ofStamp fuel t = some { t := t, d := c } ∧
      (⟨c.year, c.month, c.day⟩ : Day) = Day.next^[(t / (24 * 3600 * 10 ^ 9)).toNat] epoch ∧ Day.Valid ⟨c.year, c.month, c.day⟩ ∧
      ValidTime c.hour c.min c.sec ∧ 0 ≤ c.ns ∧ c.ns < 10 ^ 9 ∧
      t % (24 * 3600 * 10 ^ 9) = secondOfDay c.hour c.min c.sec * 10 ^ 9 + c.ns := by
  obtain ⟨c, e1, e2, e3, _, e4, e5, e6, e7⟩ := toCal fuel hf t h0 (by omega)
  exact ⟨c, e1, e2, e3, e4, e5, by omega, by omega⟩

/-- **C52**: negative time stamps are taken to be zero. -/
theorem C52_negative (fuel : Nat) (t : Int) (h : t < 0) :
    ofStamp fuel t = some { t := 0, d := { year := 1970, month := 1, day := 1 } } := by
  unfold ofStamp convertToCalTime; rw [if_pos h]

/-- **C52**, from a date to a time stamp and back: a valid date before 2^32 seconds have passed since 1970, which is on February 7, 2106, is kept by the
constructor; its time stamp is the number of nanoseconds from the days and the time of the day; and the time stamp gives the same date and time. What is
missing: later dates, for which the time stamp is wrong (`C52_fails_after_2106`). -/
theorem C52_from_date_partial (fuel : Nat) (hf : 300 ≤ fuel) (d : Day) (hd : d.Valid) (h m s : Int) (ht : ValidTime h m s) (n : Nat)
    (hn : Day.next^[n] epoch = d) (hs : n * 86400 + secondOfDay h m s < 2 ^ 32) :
    ∃ x, ofDate fuel d.year d.month d.day h m s = .ok (some x) ∧
      x.t = (n * 86400 + secondOfDay h m s) * 10 ^ 9 ∧
      x.d = { year := d.year, month := d.month, day := d.day, hour := h, min := m, sec := s, ns := 0 } ∧
      ofStamp fuel x.t = some x := by
  obtain ⟨b1, b2⟩ := daysBefore_next d hd
  have hnd : daysBefore d = n := by rw [← hn]; exact daysBefore_iterate n
  refine ⟨_, fromCal fuel d hd h m s ht (by rw [hnd]; omega), by rw [hnd]; rfl, rfl, ?_⟩
  simp only
  obtain ⟨t1, t2, t3, t4, t5, t6⟩ := ht
  unfold secondOfDay at hs ⊢
  obtain ⟨c, e1, e2, e3, _, e4, e5, e6, e7⟩ := toCal fuel hf ((daysBefore d * 86400 + (h * 3600 + m * 60 + s)) * 1000000000) (by omega) (by omega)
  unfold ofStamp
  rw [e1]
  congr 2
  rw [show ((daysBefore d * 86400 + (h * 3600 + m * 60 + s)) * 1000000000 / 86400000000000).toNat = n by omega, hn] at e2
  obtain ⟨u1, u2, u3, u4, u5, u6⟩ := e4
  unfold secondOfDay at e7
  obtain ⟨cy, cm, cd, ch, cmi, cs, cn⟩ := c
  simp only at *
  subst e2
  simp only [CalendarTime.mk.injEq, true_and]
  omega

/-- **C52**, from a time stamp to a date and back: the date of a time stamp before February 7, 2106 gives the time stamp again, up to the nanoseconds within
the second, for which the constructor has no argument. What is missing: later dates (`C52_fails_after_2106`), and the nanoseconds (`C52_fails_for_nanoseconds`). -/
theorem C52_round_trip_partial (fuel : Nat) (hf : 300 ≤ fuel) (t : Int) (h0 : 0 ≤ t) (ht : t < 2 ^ 32 * 10 ^ 9) :
    ∃ x, ofStamp fuel t = some x ∧
      (ofDate fuel x.d.year x.d.month x.d.day x.d.hour x.d.min x.d.sec).toOption.join.map (·.t) = some (t - x.d.ns) := by
  obtain ⟨c, e1, e2, e3, _, e4, e5, e6, e7⟩ := toCal fuel hf t h0 (by omega)
  refine ⟨_, e1, ?_⟩
  have hn : daysBefore ⟨c.year, c.month, c.day⟩ = (t / 86400000000000).toNat := by rw [e2]; exact daysBefore_iterate _
  have := fromCal fuel ⟨c.year, c.month, c.day⟩ e3 c.hour c.min c.sec e4 (by rw [hn]; omega)
  simp only at this ⊢
  rw [this]
  show some _ = some _
  rw [hn]; simp only [Option.some.injEq]; omega

/-- **C52**, order: of two valid dates before February 7, 2106 the earlier one has the smaller time stamp. -/
theorem C52_order_partial (fuel : Nat) (d e : Day) (hd : d.Valid) (he : e.Valid) (h m s h' m' s' : Int) (ht : ValidTime h m s) (ht' : ValidTime h' m' s')
    (n n' : Nat) (hn : Day.next^[n] epoch = d) (hn' : Day.next^[n'] epoch = e) (hs : n * 86400 + secondOfDay h m s < 2 ^ 32)
    (hs' : n' * 86400 + secondOfDay h' m' s' < 2 ^ 32) :
    ∃ x y, ofDate fuel d.year d.month d.day h m s = .ok (some x) ∧ ofDate fuel e.year e.month e.day h' m' s' = .ok (some y) ∧
      (Earlier [d.year, d.month, d.day, h, m, s] [e.year, e.month, e.day, h', m', s'] ↔ x.t < y.t) := by
  have hnd : daysBefore d = n := by rw [← hn]; exact daysBefore_iterate n
  have hne : daysBefore e = n' := by rw [← hn']; exact daysBefore_iterate n'
  refine ⟨_, _, fromCal fuel d hd h m s ht (by rw [hnd]; omega), fromCal fuel e he h' m' s' ht' (by rw [hne]; omega), ?_⟩
  simp only
  have hlt := daysBefore_lt d e hd he
  have hgt := daysBefore_lt e d he hd
  obtain ⟨d1, d2, d3, d4, d5⟩ := hd
  obtain ⟨e1, e2, e3, e4, e5⟩ := he
  have bd := monthLength_bounds d.year d.month
  have be := monthLength_bounds e.year e.month
  obtain ⟨t1, t2, t3, t4, t5, t6⟩ := ht
  obtain ⟨u1, u2, u3, u4, u5, u6⟩ := ht'
  have hA : d.year < e.year ∨ d.year = e.year ∧ (d.month < e.month ∨ d.month = e.month ∧ d.day < e.day) ↔ rank d < rank e := by
    unfold rank; clear hlt hgt; omega
  have hA' : (d.year = e.year ∧ d.month = e.month ∧ d.day = e.day) ↔ rank d = rank e := by
    unfold rank; clear hlt hgt; omega
  have hB : h < h' ∨ h = h' ∧ (m < m' ∨ m = m' ∧ s < s') ↔ secondOfDay h m s < secondOfDay h' m' s' := by
    clear hs hs'; unfold secondOfDay; omega
  have hsd : 0 ≤ secondOfDay h m s ∧ secondOfDay h m s < 86400 := by clear hs hs' hB; unfold secondOfDay; omega
  have hse : 0 ≤ secondOfDay h' m' s' ∧ secondOfDay h' m' s' < 86400 := by clear hs hs' hB; unfold secondOfDay; omega
  have hC : Earlier [d.year, d.month, d.day, h, m, s] [e.year, e.month, e.day, h', m', s'] ↔
      rank d < rank e ∨ rank d = rank e ∧ secondOfDay h m s < secondOfDay h' m' s' := by
    rw [← hA, ← hA', ← hB]
    simp only [Earlier, and_false, or_false]
    constructor
    · rintro (x | ⟨x, x' | ⟨x', x'' | ⟨x'', x'''⟩⟩⟩)
      · exact .inl (.inl x)
      · exact .inl (.inr ⟨x, .inl x'⟩)
      · exact .inl (.inr ⟨x, .inr ⟨x', x''⟩⟩)
      · exact .inr ⟨⟨x, x', x''⟩, x'''⟩
    · rintro ((x | ⟨x, x' | ⟨x', x''⟩⟩) | ⟨⟨x, x', x''⟩, x'''⟩)
      · exact .inl x
      · exact .inr ⟨x, .inl x'⟩
      · exact .inr ⟨x, .inr ⟨x', .inl x''⟩⟩
      · exact .inr ⟨x, .inr ⟨x', .inr ⟨x'', x'''⟩⟩⟩
  rw [hC]
  clear hC hA hA' hB
  omega

/-- **C52**: from 6:28:16 on February 7, 2106 the time stamp of a date is wrong: that moment gives the time stamp zero, the one of January 1, 1970. -/
theorem C52_fails_after_2106 (fuel : Nat) : Day.Valid ⟨2106, 2, 7⟩ ∧ ValidTime 6 28 16 ∧
    (ofDate fuel 2106 2 7 6 28 16).toOption.join.map (·.t) = some 0 := by
  refine ⟨by unfold Day.Valid; decide, by unfold ValidTime; decide, ?_⟩
  unfold ofDate convertFromCalTime
  rw [if_neg (by decide)]
  simp only
  rw [if_neg (by decide)]
  decide +kernel

/-- **C52**: converting a time stamp to a date and back loses the nanoseconds. -/
theorem C52_fails_for_nanoseconds : ∃ t x, 0 ≤ t ∧ ofStamp 300 t = some x ∧
    (ofDate 300 x.d.year x.d.month x.d.day x.d.hour x.d.min x.d.sec).toOption.join.map (·.t) ≠ some t := by
  refine ⟨1, { t := 1, d := { year := 1970, month := 1, day := 1, ns := 1 } }, by decide, by decide +kernel, by decide +kernel⟩

/-- **C52**: the constructor accepts dates that do not exist, and keeps them: day zero of a month, month zero, 25 o'clock, and the year 67506, which it takes
to be 1970. -/
theorem C52_fails_for_wrong_dates :
    (ofDate 300 2000 5 0 0 0 0).toOption.join.map (·.d.day) = some 0 ∧
    (ofDate 300 2000 0 0 0 0 0).toOption.join.map (·.d.month) = some 0 ∧
    (ofDate 300 2000 5 1 25 61 61).toOption.join.map (fun x => (x.d.hour, x.d.min, x.d.sec)) = some (25, 61, 61) ∧
    (ofDate 300 67506 5 1 0 0 0).toOption.join.map (·.d.year) = some 1970 := by
  decide +kernel

/-- **C52**: dates before 1970, months after December and days after the end of the month are refused. -/
theorem C52_refuses (fuel : Nat) (y mon d h m s : Int) (hbad : y < 1970 ∨ mon < 0 ∨ 12 < mon ∨ d < 0 ∨ 1 ≤ mon ∧ monthLength y mon < d) :
    ∃ msg, ofDate fuel y mon d h m s = .error msg := by
  unfold ofDate
  by_cases hm : 1 ≤ mon ∧ mon ≤ 12
  · rw [daysInMonth_eq _ _ hm, if_pos (by omega)]; exact ⟨_, rfl⟩
  · rw [if_pos (by omega)]; exact ⟨_, rfl⟩

/-- **C52**: a Unix time that is not negative is read back unchanged, and the date is the one of the time stamp. -/
theorem C52_unix (fuel : Nat) (hf : 300 ≤ fuel) (u : Int) (h0 : 0 ≤ u) (hu : u < 2 ^ 31) :
    ∃ x, ofUnix fuel u = some x ∧ x.unixTime = u ∧ x.t = u * 10 ^ 9 ∧ ofStamp fuel (u * 10 ^ 9) = some x := by
  obtain ⟨c, e1, _⟩ := toCal fuel hf (u * 1000000000) (by omega) (by omega)
  refine ⟨_, e1, ?_, rfl, e1⟩
  unfold LCTime.unixTime
  simp only
  rw [Int.tdiv_eq_ediv_of_nonneg (by omega), toInt_id _ (by omega)]
  omega

/-- **C52**: `unixTime()` is negative for time stamps after January 19, 2038. -/
theorem C52_fails_for_unix_2038 (d : CalendarTime) : LCTime.unixTime { t := 2 ^ 31 * 10 ^ 9, d := d } = -2 ^ 31 := by
  unfold LCTime.unixTime; simp only; decide +kernel

/-- **C52**: adding nanoseconds gives the time of the sum, and zero if the sum is negative. -/
theorem C52_add (fuel : Nat) (hf : 300 ≤ fuel) (x : LCTime) (t : Int) (h1 : -2 ^ 63 ≤ x.t + t) (h2 : x.t + t < 2 ^ 63) :
    ∃ y, x.add fuel t = some y ∧ y.t = max (x.t + t) 0 ∧ ofStamp fuel y.t = some y := by
  unfold LCTime.add
  rw [if_neg (by omega)]
  by_cases h : x.t + t < 0
  · have e : convertToCalTime fuel (x.t + t) = some { t := 0, d := { year := 1970, month := 1, day := 1 } } := C52_negative fuel _ h
    refine ⟨_, e, by simp only; omega, ?_⟩
    obtain ⟨c, e1, e2, e3, _, e4, e5, e6, e7⟩ := toCal fuel hf 0 (by omega) (by omega)
    unfold ofStamp
    rw [e1]
    congr 2
    obtain ⟨u1, u2, u3, u4, u5, u6⟩ := e4
    unfold secondOfDay at e7
    obtain ⟨cy, cm, cd, ch, cmi, cs, cn⟩ := c
    simp only [epoch, show ((0 : Int) / 86400000000000).toNat = 0 from rfl, Function.iterate_zero, id_eq, Day.mk.injEq] at *
    simp only [CalendarTime.mk.injEq]
    omega
  · obtain ⟨c, e1, _⟩ := toCal fuel hf (x.t + t) (by omega) (by omega)
    exact ⟨_, e1, by simp only; omega, e1⟩

/-! ### The date as text -/

theorem decLoop_length (fuel n w : Nat) (h : n < 10 ^ (w + 1)) : (decLoop fuel n).length ≤ w + 1 := by
  induction fuel generalizing n w with
  | zero => exact Nat.zero_le _
  | succ fuel ih =>
    rw [decLoop]
    split
    · exact Nat.succ_le_succ (Nat.zero_le _)
    · cases w with
      | zero => omega
      | succ w =>
        rw [List.length_append]
        have : n / 10 < 10 ^ (w + 1) := by rw [Nat.pow_succ] at h; omega
        have := ih (n / 10) w this
        exact Nat.succ_le_succ this

theorem padded_length (w : Nat) (x : Int) (h0 : 0 ≤ x) (h : x.toNat < 10 ^ (w + 1)) : (padded (w + 1) x).length = w + 1 := by
  have : (decInt x).length ≤ w + 1 := by
    unfold decInt dec; rw [if_neg (by omega)]; exact decLoop_length _ _ _ h
  unfold padded
  rw [List.length_append, List.length_replicate]; omega

theorem digits_zeros (k : Nat) (s : Str) : digits 0 (List.replicate k 48 ++ s) = digits 0 s := by
  induction k with
  | zero => rfl
  | succ k ih =>
    rw [List.replicate_succ, List.cons_append, digits, if_pos (by decide)]
    exact ih

theorem padded_inj (w : Nat) (x y : Int) (hx : 0 ≤ x) (hy : 0 ≤ y) (h : padded w x = padded w y) : x = y := by
  have : digits 0 (padded w x) = digits 0 (padded w y) := by rw [h]
  unfold padded at this
  rw [digits_zeros, digits_zeros] at this
  unfold decInt at this
  rw [if_neg (by omega), if_neg (by omega), dec_value, dec_value] at this
  omega

/-- The fields are printed with as many digits as there is room for. -/
def Fits (c : CalendarTime) : Prop :=
  (0 ≤ c.day ∧ c.day < 100) ∧ (0 ≤ c.month ∧ c.month < 100) ∧ (0 ≤ c.year ∧ c.year < 10000) ∧ (0 ≤ c.hour ∧ c.hour < 100) ∧ (0 ≤ c.min ∧ c.min < 100) ∧
  (0 ≤ c.sec ∧ c.sec < 100) ∧ 0 ≤ c.ns

theorem dateString_inj (c d : CalendarTime) (hc : Fits c) (hd : Fits d) (h : dateString c = dateString d) :
    c.day = d.day ∧ c.month = d.month ∧ c.year = d.year ∧ c.hour = d.hour ∧ c.min = d.min ∧ c.sec = d.sec ∧ c.ns = d.ns := by
  obtain ⟨c1, c2, c3, c4, c5, c6, c7⟩ := hc
  obtain ⟨d1, d2, d3, d4, d5, d6, d7⟩ := hd
  have L2 : ∀ x y : Int, 0 ≤ x ∧ x < 100 → 0 ≤ y ∧ y < 100 → (padded 2 x).length = (padded 2 y).length := by
    intro x y hx hy
    rw [padded_length 1 x hx.1 (by omega), padded_length 1 y hy.1 (by omega)]
  have L4 : ∀ x y : Int, 0 ≤ x ∧ x < 10000 → 0 ≤ y ∧ y < 10000 → (padded 4 x).length = (padded 4 y).length := by
    intro x y hx hy
    rw [padded_length 3 x hx.1 (by omega), padded_length 3 y hy.1 (by omega)]
  unfold dateString at h
  simp only [List.append_assoc] at h
  obtain ⟨r1, h⟩ := List.append_inj h (L2 _ _ c1 d1)
  obtain ⟨-, h⟩ := List.append_inj h rfl
  obtain ⟨r2, h⟩ := List.append_inj h (L2 _ _ c2 d2)
  obtain ⟨-, h⟩ := List.append_inj h rfl
  obtain ⟨r3, h⟩ := List.append_inj h (L4 _ _ c3 d3)
  obtain ⟨-, h⟩ := List.append_inj h rfl
  obtain ⟨r4, h⟩ := List.append_inj h (L2 _ _ c4 d4)
  obtain ⟨-, h⟩ := List.append_inj h rfl
  obtain ⟨r5, h⟩ := List.append_inj h (L2 _ _ c5 d5)
  obtain ⟨-, h⟩ := List.append_inj h rfl
  obtain ⟨r6, h⟩ := List.append_inj h (L2 _ _ c6 d6)
  obtain ⟨-, r7⟩ := List.append_inj h rfl
  exact ⟨padded_inj _ _ _ c1.1 d1.1 r1, padded_inj _ _ _ c2.1 d2.1 r2, padded_inj _ _ _ c3.1 d3.1 r3, padded_inj _ _ _ c4.1 d4.1 r4,
    padded_inj _ _ _ c5.1 d5.1 r5, padded_inj _ _ _ c6.1 d6.1 r6, padded_inj _ _ _ c7 d7 r7⟩

theorem fits_of_valid (c : CalendarTime) (h1 : Day.Valid ⟨c.year, c.month, c.day⟩) (h2 : c.year < 2270) (h3 : ValidTime c.hour c.min c.sec) (h4 : 0 ≤ c.ns) :
    Fits c := by
  obtain ⟨a1, a2, a3, a4, a5, a6⟩ := h3
  obtain ⟨p1, p2, p3, p4, p5⟩ := h1
  have m1 := monthLength_bounds c.year c.month
  simp only at p1 p2 p3 p4 p5
  exact ⟨⟨by omega, by omega⟩, ⟨by omega, by omega⟩, ⟨by omega, by omega⟩, ⟨by omega, by omega⟩, ⟨by omega, by omega⟩, ⟨by omega, by omega⟩, h4⟩

/-- **C52**: two time stamps with the same text, as given by `getDateString`, are equal. -/
theorem C52_text (fuel : Nat) (hf : 300 ≤ fuel) (t u : Int) (h0 : 0 ≤ t) (h1 : 0 ≤ u) (ht : t < 2 ^ 63) (hu : u < 2 ^ 63) (x y : LCTime)
    (hx : ofStamp fuel t = some x) (hy : ofStamp fuel u = some y) (h : dateString x.d = dateString y.d) : t = u := by
  obtain ⟨c, e1, e2, e3, e3', e4, e5, e6, e7⟩ := toCal fuel hf t h0 (by omega)
  obtain ⟨d, f1, f2, f3, f3', f4, f5, f6, f7⟩ := toCal fuel hf u h1 (by omega)
  unfold ofStamp at hx hy
  rw [e1] at hx; rw [f1] at hy
  obtain rfl := Option.some.inj hx
  obtain rfl := Option.some.inj hy
  obtain ⟨r1, r2, r3, r4, r5, r6, r7⟩ := dateString_inj c d (fits_of_valid c e3 e3' e4 e5) (fits_of_valid d f3 f3' f4 f5) h
  have hday : (⟨c.year, c.month, c.day⟩ : Day) = ⟨d.year, d.month, d.day⟩ := by rw [r1, r2, r3]
  rw [e2, f2] at hday
  have := iterate_inj hday
  rw [r4, r5, r6, r7, ← f7] at e7
  clear e2 f2 e3 f3 f7 hx hy
  omega

/-- A case: 12:34:56 on February 29, 2024. -/
example : (ofDate 300 2024 2 29 12 34 56).toOption.join.map (fun x => (x.t, dateString x.d)) = some (1709210096000000000, str "29.02.2024  12:34:56.000000000") ∧
    Day.Valid ⟨2024, 2, 29⟩ ∧ ValidTime 12 34 56 := by
  refine ⟨by decide +kernel, ?_, ?_⟩
  · unfold Day.Valid; decide
  · unfold ValidTime; decide

/-- The number of days up to then, for the theorems that ask for it. -/
example : Day.next^[19782] epoch = ⟨2024, 2, 29⟩ := by
  have h := (daysBefore_next ⟨2024, 2, 29⟩ (by unfold Day.Valid; decide)).2
  rwa [show (daysBefore ⟨2024, 2, 29⟩).toNat = 19782 by decide +kernel] at h

end Props
