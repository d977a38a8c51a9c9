import Verif.Spec.Navigator
/-
The lists of a relation navigator, for programs that keep what they were given.
-/
namespace Spec
open Sio Lcio Util

/-- The relations after calls. -/
def relsAfter (add : W32 → W32 → W32) (R : List Relation) (cs : List NavCall) : List Relation := cs.foldl (relAfter add) R

/-- The relations a getter lists. -/
def navListed (R : List Relation) : NavCall → List Relation
  | .toObjects a | .toWeights a => R.filter (·.from_ = a)
  | .fromObjects b | .fromWeights b => R.filter (·.to = b)
  | _ => []

/-- What a getter shows of relations. -/
def navShown (E : List Relation) : NavCall → NavAnswer
  | .toObjects _ => .objects (E.map (·.to))
  | .toWeights _ | .fromWeights _ => .weights (E.map (·.weight))
  | .fromObjects _ => .objects (E.map (·.from_))
  | _ => .done

/-- During calls the last relation that getter `c` lists is removed. -/
def navEmptied (add : W32 → W32 → W32) (c : NavCall) : List Relation → List NavCall → Prop
  | _, [] => False
  | R, d :: ds => (navListed R c ≠ [] ∧ navListed (relAfter add R d) c = []) ∨ navEmptied add c (relAfter add R d) ds

/-- The elements at odd positions. -/
def oddPositions {α : Type} : List α → List α
  | _ :: y :: l => y :: oddPositions l
  | _ => []

end Spec
