import Verif.Util.Pid
/-
What a user expects of the algorithms of a collection: they are numbered in the order in which they were added.
-/
namespace Spec
open Sio Lcio Util

/-- The algorithms that were added, with the names of their parameters. The number of an algorithm is its place in the list. -/
abbrev Algorithms := List (Str × List Str)

/-- The answers to calls, and the algorithms after them: a name that is there is refused; storing and reloading changes nothing. -/
def pidAnswers (A : Algorithms) : List PidCall → List (Option Int) × Algorithms
  | [] => ([], A)
  | .add n ps :: cs =>
    if n ∈ A.map (·.1) then (none :: (pidAnswers A cs).1, (pidAnswers A cs).2)
    else (some A.length :: (pidAnswers (A ++ [(n, ps)]) cs).1, (pidAnswers (A ++ [(n, ps)]) cs).2)
  | .reload :: cs => pidAnswers A cs

/-- A handler knows exactly these algorithms. -/
structure Knows (h : PidHandler) (A : Algorithms) : Prop where
  id : ∀ (i : Nat) n ps, A[i]? = some (n, ps) → h.getAlgorithmID n = .ok i
  name : ∀ (i : Nat) n ps, A[i]? = some (n, ps) → h.getAlgorithmName i = .ok n
  params : ∀ (i : Nat) n ps, A[i]? = some (n, ps) → h.getParameterNames i = .ok ps
  otherNames : ∀ n, n ∉ A.map (·.1) → h.getAlgorithmID n = .error .lcException
  otherIds : ∀ i : Int, (i < 0 ∨ (A.length : Int) ≤ i) → h.getAlgorithmName i = .error .lcException ∧ h.getParameterNames i = .error .lcException
  ids : h.ids.Perm ((List.range A.length).map Int.ofNat)

/-- The collection has no algorithms. -/
def NoAlgorithms (p : Params) : Prop := omFind strLt (str "PIDAlgorithmTypeName") p.strs = none ∧ omFind strLt (str "PIDAlgorithmTypeID") p.ints = none

end Spec
