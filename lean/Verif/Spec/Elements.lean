import Verif.Lcio.Elements
/-
What is in a collection after calls, and whether it is a subset collection, as the calls say.
-/
namespace Spec
open Sio Lcio

/-- The elements of a collection that had `l`. -/
def elemsAfter (col : Nat) : List Nat → List ElemCall → List Nat
  | l, [] => l
  | l, .addElement c x :: cs => elemsAfter col (if c = col then l ++ [x] else l) cs
  | l, .removeElementAt c i :: cs => elemsAfter col (if c = col then l.take i ++ l.drop (i + 1) else l) cs
  | l, _ :: cs => elemsAfter col l cs

/-- Whether a collection is a subset collection: the last call of `setSubset` or `setFlag` decides. -/
def subsetAfter (col : Nat) : Bool → List ElemCall → Bool
  | b, [] => b
  | b, .setSubset c val :: cs => subsetAfter col (if c = col then val else b) cs
  | b, .setFlag c flag :: cs => subsetAfter col (if c = col then flag.getLsbD 18 else b) cs
  | b, _ :: cs => subsetAfter col b cs

/-- The objects that are added to collections that are not in `S`, in order. -/
def objectsGiven (S : Nat → Bool) : List ElemCall → List Nat
  | [] => []
  | .addElement c x :: cs => if S c || x == 0 then objectsGiven S cs else x :: objectsGiven S cs
  | _ :: cs => objectsGiven S cs

end Spec
