import Verif.Lcio.Lazy
/-
Sequences of calls for which lazy unpacking makes no difference.
-/
namespace Spec
open Sio Lcio

/-- A call that removes a collection. -/
def isRemove : EventCall → Bool
  | .remove _ => true
  | _ => false

/-- The calls are in an order that is safe for an event with lazy unpacking that was stored with collections of the given names, in order of the names.
`asked`: a collection was asked for before. Nothing is added before the first collection is asked for; names that are removed are not those of
stored collections; and once a collection was asked for, also the last one of the stored collections may be removed, and finally another one. -/
def Careful (names : List Str) : Bool → List EventCall → Prop
  | _, [] => True
  | _, .get _ :: cs => Careful names true cs
  | _, .take _ :: cs => Careful names true cs
  | asked, .add _ _ :: cs => asked = true ∧ Careful names true cs
  | asked, .remove n :: cs => (n ∉ names ∧ Careful names asked cs) ∨ (asked = true ∧ n ∉ names.dropLast ∧ Careful names true cs) ∨
      (asked = true ∧ ∀ c ∈ cs, isRemove c = false)
  | asked, .names :: cs => Careful names asked cs
  | asked, .setAccessMode _ :: cs => Careful names asked cs

end Spec
