import Verif.Util.Fortran
/-
What a Fortran program expects of the Fortran interface (C94).
-/
namespace Spec
open Sio Lcio Fort

/-- The array `a` with the first `k` values of `vec` at its beginning, and nothing else changed. -/
def StoredAtFront {α : Type} (vec a : List α) (k : Nat) (a' : List α) : Prop :=
  a'.length = a.length ∧ (∀ i, i < k → a'[i]? = vec[i]?) ∧ (∀ i, k ≤ i → a'[i]? = a[i]?)

/-- A string that a Fortran program with strings of `nch` characters can hold. -/
def FitsFortran (nch : Nat) (s : Str) : Prop := s.length ≤ nch ∧ (0 : Byte) ∉ s

/-- The `i`-th element, counted from one. -/
def nth1 {α : Type} (l : List α) (i : Int) : Option α := if 1 ≤ i then l[(i - 1).toNat]? else none

/-- The functions for an element by number that count from one. -/
def countsFromOne : Access → Bool
  | .parent | .simTrackerHit => false
  | _ => true

/-- The functions for an element by number that report a number out of range. -/
def reportsRange : Access → Bool
  | .particleCont | .rawData | .related | .simCaloHitCont => true
  | _ => false

/-- Methods for setting and getting the same parameter; a vector of the simple kind with the values set; a vector of the other kind before and after getting them. -/
inductive SameValues : (setter getter : Str) → Vector → Vector → Vector → Prop where
  | ints (l m : List W32) : SameValues (str "setIntValues") (str "getIntValues") (.ints l) (.lcInts m) (.lcInts (m ++ l))
  | floats (l m : List W32) : SameValues (str "setFloatValues") (str "getFloatValues") (.floats l) (.lcFloats m) (.lcFloats (m ++ l))
  | strs (l m : List Str) : SameValues (str "setStringValues") (str "getStringValues") (.strs l) (.lcStrs m) (.lcStrs (m ++ l))

end Spec
