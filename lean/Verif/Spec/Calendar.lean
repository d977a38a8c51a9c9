import Mathlib.Logic.Function.Iterate
/-
The Gregorian calendar, told from one day to the next.
-/
namespace Spec

/-- A day in the calendar. -/
structure Day where
  year : Int
  month : Int
  day : Int
  deriving DecidableEq

/-- Every fourth year is a leap year, except for centuries that are not multiples of 400. -/
def Leap (y : Int) : Prop := 4 ∣ y ∧ (100 ∣ y → 400 ∣ y)

instance (y : Int) : Decidable (Leap y) := by unfold Leap; infer_instance

/-- Thirty days hath September, April, June and November; all the rest have thirty-one, except for February. -/
def monthLength (y m : Int) : Int :=
  if m = 9 ∨ m = 4 ∨ m = 6 ∨ m = 11 then 30 else if m = 2 then (if Leap y then 29 else 28) else 31

/-- Tomorrow. -/
def Day.next (d : Day) : Day :=
  if d.day < monthLength d.year d.month then { d with day := d.day + 1 }
  else if d.month < 12 then { d with month := d.month + 1, day := 1 }
  else { year := d.year + 1, month := 1, day := 1 }

/-- The first of January 1970. -/
def epoch : Day := { year := 1970, month := 1, day := 1 }

/-- A date that exists in the calendar, not before 1970. -/
def Day.Valid (d : Day) : Prop := 1970 ≤ d.year ∧ 1 ≤ d.month ∧ d.month ≤ 12 ∧ 1 ≤ d.day ∧ d.day ≤ monthLength d.year d.month

/-- A time of the day: hours, minutes and seconds. -/
def ValidTime (h m s : Int) : Prop := 0 ≤ h ∧ h < 24 ∧ 0 ≤ m ∧ m < 60 ∧ 0 ≤ s ∧ s < 60

/-- The seconds since midnight. -/
def secondOfDay (h m s : Int) : Int := h * 3600 + m * 60 + s

/-- One list of numbers is before another one: the first difference decides. -/
def Earlier : List Int → List Int → Prop
  | a :: as, b :: bs => a < b ∨ a = b ∧ Earlier as bs
  | _, _ => False

end Spec
