import Verif.Util.Text
/-
`UTIL::LCTime`, src/cpp/src/UTIL/LCTime.cc and src/cpp/include/UTIL/LCTime.h.

`int`, `short` and `long64` are integers here; every place where the C++ type can be too small has an explicit conversion.
-/
namespace Util
open Sio Lcio

/-- Conversion of an integer to `short`: two's complement. -/
def toShort (x : Int) : Int := (x + 32768) % 65536 - 32768

/-- Conversion of an integer to `int`: two's complement. -/
def toInt (x : Int) : Int := (x + 2147483648) % 4294967296 - 2147483648

/-- Conversion of an integer to `unsigned`. -/
def toUnsigned (x : Int) : Int := x % 4294967296

/-- `LCTime::CalendarTime`, LCTime.h:24-32. -/
structure CalendarTime where
  year : Int := 0
  month : Int := 0
  day : Int := 0
  hour : Int := 0
  min : Int := 0
  sec : Int := 0
  ns : Int := 0
  deriving DecidableEq, Repr

/-- `LCTime`, LCTime.h:119-120: `_t` and `_d`. -/
structure LCTime where
  t : Int := 0
  d : CalendarTime := {}
  deriving DecidableEq, Repr

/-- `isLeapYear`, LCTime.h:66. The remainder of C++ is zero exactly when this one is. -/
def isLeapYear (y : Int) : Bool := (y.tmod 4 == 0 && y.tmod 100 != 0) || y.tmod 400 == 0

/-- `daysInYear`, LCTime.cc:196-200. -/
def daysInYear (y : Int) : Int := if isLeapYear y then 365 + 1 else 365

/-- `dpm`, LCTime.cc:27. -/
def dpm : List Int := [0, 31, 28, 31, 30, 31, 30, 31, 31, 30, 31, 30, 31]

/-- `daysInMonth`, LCTime.cc:202-210. -/
def daysInMonth (mon y : Int) : Int :=
  if mon < 1 ∨ mon > 12 then 0
  else
    let d := dpm.getD mon.toNat 0
    if mon = 2 ∧ isLeapYear y then d + 1 else d

/-- The loop over years, LCTime.cc:122-125, from a year and a number of days: the year and the days left. `none` if it takes more than `fuel`
turns. (`year` is a `short`; it would have to pass 32767 to overflow.) -/
def yearLoop : Nat → Int → Int → Option (Int × Int)
  | 0, _, _ => none
  | fuel + 1, y, n => if n - daysInYear y ≥ 0 then yearLoop fuel (toShort (y + 1)) (n - daysInYear y) else some (y, n)

/-- The loop over months, LCTime.cc:129-132. -/
def monthLoop (y : Int) : Nat → Int → Int → Option (Int × Int)
  | 0, _, _ => none
  | fuel + 1, m, n => if n - daysInMonth m y ≥ 0 then monthLoop y fuel (toShort (m + 1)) (n - daysInMonth m y) else some (m, n)

/-- `convertToCalTime`, LCTime.cc:96-163, with the time stamp `t`; `none` if it does not end within `fuel` turns of each loop. -/
def convertToCalTime (fuel : Nat) (t : Int) : Option LCTime :=
  if t < 0 then some { t := 0, d := { year := 1970, month := 1, day := 1 } }
  else
    let s := t.tdiv 1000000000
    let ns := toInt (t.tmod 1000000000)
    let nDays := toInt (s.tdiv 86400)
    match yearLoop fuel 1970 nDays with
    | none => none
    | some (y, n) =>
      match monthLoop y fuel 1 n with
      | none => none
      | some (m, n) =>
        let s1 := s.tmod 86400
        let s2 := s1.tmod 3600
        some { t := t, d := { year := y, month := m, day := toShort (1 + n), hour := toShort (s1.tdiv 3600), min := toShort (s2.tdiv 60),
                              sec := toShort (s2.tmod 60), ns := ns } }

/-- The loop `for( int y = YEAR0 ; y < _d.year ; y ++ )`, LCTime.cc:177-179, with `k` turns: `nDays` is `unsigned`. -/
def addYears : Nat → Int
  | 0 => 0
  | k + 1 => toUnsigned (addYears k + daysInYear (1970 + k))

/-- The loop `for( int m = 1 ;  m < _d.month ; m ++ )`, LCTime.cc:181-183, with `k` turns, starting with `n` days. -/
def addMonths (y n : Int) : Nat → Int
  | 0 => n
  | k + 1 => toUnsigned (addMonths y n k + daysInMonth (1 + k) y)

/-- `convertFromCalTime`, LCTime.cc:165-193. The sum of line 188 is computed with `unsigned` numbers. -/
def convertFromCalTime (fuel : Nat) (d : CalendarTime) : Option LCTime :=
  let go (d : CalendarTime) : LCTime :=
    let n := addYears (d.year - 1970).toNat
    let n := addMonths d.year n (d.month - 1).toNat
    let n := toUnsigned (n + (d.day - 1))
    let s := toUnsigned (n * 86400 + d.hour * 3600 + d.min * 60 + d.sec)
    { t := s * 1000000000, d := d }
  if d.year < 1970 then (convertToCalTime fuel (-1)).map fun x => go x.d else some (go d)

/-- `LCTime( long64 time )`, LCTime.cc:58-61. -/
def ofStamp (fuel : Nat) (t : Int) : Option LCTime := convertToCalTime fuel t

/-- `LCTime(int y, int mon, int d, int h, int m, int s )`, LCTime.cc:64-85: an exception if the date is refused (`error`); otherwise as
`convertFromCalTime`. -/
def ofDate (fuel : Nat) (y mon d h m s : Int) : Except String (Option LCTime) :=
  if y < 1970 ∨ mon < 0 ∨ mon > 12 ∨ d < 0 ∨ d > daysInMonth mon y then .error "LCTime::LCTime() invalid date"
  else .ok (convertFromCalTime fuel
    { year := toShort y, month := toShort mon, day := toShort d, hour := toShort h, min := toShort m, sec := toShort s, ns := 0 })

/-- `LCTime( int unix_time)`, LCTime.cc:87-92. -/
def ofUnix (fuel : Nat) (u : Int) : Option LCTime := convertToCalTime fuel (u * 1000000000)

/-- `unixTime()`, LCTime.h:55. -/
def LCTime.unixTime (x : LCTime) : Int := toInt (x.t.tdiv 1000000000)

/-- `operator+=`, LCTime.cc:213-216. `none` also if the sum does not fit into a `long64` (undefined). -/
def LCTime.add (fuel : Nat) (x : LCTime) (t : Int) : Option LCTime :=
  if x.t + t < -9223372036854775808 ∨ x.t + t > 9223372036854775807 then none else convertToCalTime fuel (x.t + t)

/-- `out << setfill('0') << std::setw(w) << x`. -/
def padded (w : Nat) (x : Int) : Str := List.replicate (w - (decInt x).length) 48 ++ decInt x

/-- `getDateString`, LCTime.cc:220-241. -/
def dateString (d : CalendarTime) : Str :=
  padded 2 d.day ++ str "." ++ padded 2 d.month ++ str "." ++ padded 4 d.year ++ str "  " ++ padded 2 d.hour ++ str ":" ++ padded 2 d.min ++ str ":" ++
    padded 2 d.sec ++ str "." ++ padded 9 d.ns

end Util
