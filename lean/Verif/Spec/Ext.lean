import Verif.Lcio.Ext
/-
Programs that attach things to objects: what they use, what they give away, and what is attached.
-/
namespace Spec
open Sio Lcio

/-- The program uses only objects that exist. `l`: which of the objects made so far exist. -/
def wellUsed : List Bool → List ExtCall → Prop
  | _, [] => True
  | l, .make _ :: cs => wellUsed (l ++ [true]) cs
  | l, .get a _ :: cs => l[a]? = some true ∧ wellUsed l cs
  | l, .put a _ _ :: cs => l[a]? = some true ∧ wellUsed l cs
  | l, .copy a :: cs => l[a]? = some true ∧ wellUsed (l ++ [true]) cs
  | l, .assign a b :: cs => l[a]? = some true ∧ l[b]? = some true ∧ wellUsed l cs
  | l, .delete a :: cs => l[a]? = some true ∧ wellUsed (l.set a false) cs

/-- What the program gives to extensions that own it, in order. -/
def givenAway (K : Nat → ExtKind) : List ExtCall → List Nat
  | [] => []
  | .put _ tag x :: cs => if (K tag).owned ∧ x ≠ 0 then x :: givenAway K cs else givenAway K cs
  | _ :: cs => givenAway K cs

/-- What is attached to the object `a` as `tag`, where `l` is what was there: the value assigned last, or everything that was added. -/
def attached (K : Nat → ExtKind) (a tag : Nat) : List Nat → List ExtCall → List Nat
  | l, [] => l
  | l, .put b t x :: cs => attached K a tag (if b = a ∧ t = tag then (if (K tag).many then l ++ [x] else [x]) else l) cs
  | l, _ :: cs => attached K a tag l cs

/-- No object is copied or assigned. -/
def noCopies (cs : List ExtCall) : Prop := ∀ c ∈ cs, (∀ a, c ≠ .copy a) ∧ ∀ a b, c ≠ .assign a b

/-- Which objects exist after a call. -/
def flagsAfter (l : List Bool) : ExtCall → List Bool
  | .make _ => l ++ [true]
  | .copy _ => l ++ [true]
  | .delete a => l.set a false
  | _ => l

/-- What an object has as an extension before anything is attached: zero or a null pointer, or an empty container. -/
def unattached (K : Nat → ExtKind) (tag : Nat) : List Nat := if (K tag).many then [] else [0]

end Spec
