import Verif.Lcio.Objects
/-
IEEE 754 conversions and comparison on bit patterns, and a standard library that has them.

The theorems about storing objects hold for any conversion functions (`Std`). This file has those of IEEE 754 with rounding to nearest, as
C++ implementations use.
-/
namespace Lcio
open Sio

/-- The bit pattern is one of not-a-number. -/
def fNaN (x : W32) : Bool := decide (0x7f800000 < x.toNat % 2147483648)

/-- The place of a (number's) bit pattern in the order of the numbers. -/
def fKey (x : W32) : Int := if x.toNat < 2147483648 then x.toNat else -(x.toNat - 2147483648)

/-- `a > b` for `float`. -/
def fltGt (a b : W32) : Bool := !fNaN a && !fNaN b && decide (fKey b < fKey a)

/-- Bit pattern of a `double` from sign, exponent and fraction. -/
def pack64 (s e m : Nat) : W64 := BitVec.ofNat 64 (s * 9223372036854775808 + e * 4503599627370496 + m)
/-- Bit pattern of a `float` from sign and the rest. -/
def pack32 (s r : Nat) : W32 := BitVec.ofNat 32 (s * 2147483648 + r)

/-- Conversion of `float` to `double` (exact; a signalling NaN becomes quiet). -/
def ieeeWiden (x : W32) : W64 :=
  let s := x.toNat / 2147483648
  let e := x.toNat / 8388608 % 256
  let m := x.toNat % 8388608
  if e = 255 then pack64 s 2047 (if m = 0 then 0 else m % 4194304 * 536870912 + 2251799813685248)
  else if e = 0 then
    if m = 0 then pack64 s 0 0
    else pack64 s (m.log2 + 874) ((m - 2 ^ m.log2) * 2 ^ (52 - m.log2))
  else pack64 s (e + 896) (m * 536870912)

/-- `M / 2^sh`, rounded to nearest, ties to even. -/
def rne (M sh : Nat) : Nat :=
  if M % 2 ^ sh > 2 ^ (sh - 1) ∨ (M % 2 ^ sh = 2 ^ (sh - 1) ∧ M / 2 ^ sh % 2 = 1) then M / 2 ^ sh + 1 else M / 2 ^ sh

/-- Conversion of `double` to `float`, rounding to nearest. -/
def ieeeNarrow (x : W64) : W32 :=
  let s := x.toNat / 9223372036854775808
  let e := x.toNat / 4503599627370496 % 2048
  let m := x.toNat % 4503599627370496
  if e = 2047 then pack32 s (2139095040 + if m = 0 then 0 else m / 536870912 % 4194304 + 4194304)
  else if e < 897 then pack32 s (rne (if e = 0 then m else 4503599627370496 + m) (29 + (897 - max e 1)))
  else pack32 s (min ((e - 897) * 8388608 + rne (4503599627370496 + m) 29) 2139095040)

/-- Insertion into a list in descending order of likelihood, behind those that are not lower. -/
def pidInsert (p : Pid) : List Pid → List Pid
  | [] => [p]
  | q :: l => if fltGt p.likelihood q.likelihood then p :: q :: l else q :: pidInsert p l

/-- Insertion sort: one of the behaviours `std::sort` may have. -/
def pidSort (l : List Pid) : List Pid := l.foldl (fun acc p => pidInsert p acc) []

/-- A standard library. -/
def ieee : Std Pid := { narrow := ieeeNarrow, widen := ieeeWiden, sort := pidSort }

end Lcio
