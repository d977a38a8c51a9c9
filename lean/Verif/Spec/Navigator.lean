import Verif.Util.Navigator
/-
A set of weighted relations as users think of it: a list of relations, in the order in which they were added.
-/
namespace Spec
open Sio Lcio Util

/-- The two objects of a relation. -/
def ends (r : Relation) : Nat × Nat := (r.from_, r.to)

/-- Adding: the weight of an existing relation is increased, a new one comes last. -/
def relAdd (add : W32 → W32 → W32) (R : List Relation) (a b : Nat) (w : W32) : List Relation :=
  if (a, b) ∈ R.map ends then R.map fun r => if ends r = (a, b) then { r with weight := add r.weight w } else r
  else R ++ [{ from_ := a, to := b, weight := w }]

/-- Removing. -/
def relRemove (R : List Relation) (a b : Nat) : List Relation := R.filter fun r => ends r ≠ (a, b)

/-- The relations after one call. -/
def relAfter (add : W32 → W32 → W32) (R : List Relation) : NavCall → List Relation
  | .add a b w => relAdd add R a b w
  | .remove a b => relRemove R a b
  | _ => R

/-- The answer to a call when the relations are `R`, between objects of the types given. A collection contains the relations, grouped by their first object,
and says that weights are stored if one differs from 1. -/
def RelAnswer (fromType toType : Str) (R : List Relation) : NavCall → NavAnswer → Prop
  | .toObjects a, x => x = .objects ((R.filter (·.from_ = a)).map (·.to))
  | .toWeights a, x => x = .weights ((R.filter (·.from_ = a)).map (·.weight))
  | .fromObjects b, x => x = .objects ((R.filter (·.to = b)).map (·.from_))
  | .fromWeights b, x => x = .weights ((R.filter (·.to = b)).map (·.weight))
  | .create, x => ∃ c, x = .collection c ∧ c.elements.Perm R ∧ c.elements.Pairwise (fun r s => r.from_ ≤ s.from_) ∧
      (∀ a, c.elements.filter (·.from_ = a) = R.filter (·.from_ = a)) ∧
      (c.flag.getLsbD 31 = true ↔ ∃ r ∈ R, r.weight ≠ 0x3f800000) ∧ (∀ i < 31, c.flag.getLsbD i = false) ∧
      getVal [] c.params.strs (str "FromType") = .ok fromType ∧ getVal [] c.params.strs (str "ToType") = .ok toType
  | _, x => x = .done

/-- The answers to a sequence of calls, and the relations afterwards. -/
def RelAnswers (add : W32 → W32 → W32) (fromType toType : Str) (R : List Relation) : List NavCall → List NavAnswer → List Relation → Prop
  | [], xs, R' => xs = [] ∧ R' = R
  | c :: cs, xs, R' => ∃ x xs', xs = x :: xs' ∧ RelAnswer fromType toType R c x ∧ RelAnswers add fromType toType (relAfter add R c) cs xs' R'

end Spec
