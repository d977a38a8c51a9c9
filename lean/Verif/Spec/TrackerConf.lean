import Verif.Spec.Bits
/-
Encodings of cell ids of trackers.
-/
namespace Spec
open Sio Lcio

/-- The first occurrence of a word in a text. -/
def FirstAt (s word : Str) (p : Nat) : Prop :=
  (∃ a b, s = a ++ word ++ b ∧ a.length = p) ∧ ∀ a b, s = a ++ word ++ b → p ≤ a.length

/-- The names of fields that the class knows. -/
def confNames : List Str := [str "subdet", str "system", str "side", str "layer", str "module", str "sensor"]

/-- The words that an encoding has to contain, in this order; instead of "subdet" it can contain "system". -/
def NamesInOrder (s : Str) : Prop :=
  ∃ p0 p1 p2 p3 p4, (FirstAt s (str "subdet") p0 ∨ FirstAt s (str "system") p0) ∧ FirstAt s (str "side") p1 ∧ FirstAt s (str "layer") p2 ∧
    FirstAt s (str "module") p3 ∧ FirstAt s (str "sensor") p4 ∧ p0 < p1 ∧ p1 < p2 ∧ p2 < p3 ∧ p3 < p4

/-- The encoding in force after some attempts to set one: the last good one of them. -/
def lastGood (good : Str → Bool) (dflt : Str) : List Str → Str
  | [] => dflt
  | s :: ss => lastGood good (if good s then s else dflt) ss

end Spec
