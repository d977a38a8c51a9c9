import Verif.Util.StdHep
/-
The numbering scheme for particles of the Particle Data Group, as far as charges are concerned. Charges are in units of a third of the positron's.
-/
namespace Spec
open Sio Util

/-- Quarks d, u, s, c, b, t have the digits 1 to 6. -/
def quark (q : Nat) : Int := if q % 2 = 0 then 2 else -1

def IsQuark (q : Nat) : Prop := 1 ≤ q ∧ q ≤ 6

/-- A code: `h` are the digits before the last four (at most three, for states that are not the lowest ones), then those of the quarks, and the last one, for the spin. -/
def code (h q1 q2 q3 nj : Nat) : Nat := h * 10000 + q1 * 1000 + q2 * 100 + q3 * 10 + nj

/-- Mesons: the heavier quark comes first; the code is positive for the quark of type u or the antiquark of type d. -/
def mesonCharge (q2 q3 : Nat) : Int := if q2 % 2 = 0 then quark q2 - quark q3 else quark q3 - quark q2

/-- Particles with a code below 100 that have a charge; those with the codes 7, 8, 17 and 18 are of a fourth generation. -/
def elementary (n : Nat) : Int :=
  if n = 1 ∨ n = 3 ∨ n = 5 ∨ n = 7 then -1
  else if n = 2 ∨ n = 4 ∨ n = 6 ∨ n = 8 then 2
  else if n = 11 ∨ n = 13 ∨ n = 15 ∨ n = 17 then -3
  else if n = 24 ∨ n = 34 ∨ n = 37 then 3
  else if n = 42 then -1
  else if n = 52 ∨ n = 54 then 6
  else if n = 53 then 3
  else 0

/-- Codes of neutral or doubly charged particles that do not follow from those of their partners. -/
def exceptional : List Nat := [1000017, 1000018, 1000034, 1000052, 1000053, 1000054, 5100061, 5100062]

end Spec
