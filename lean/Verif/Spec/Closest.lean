import Verif.Lcio.Closest
/-
Specification of the state of a track that is closest to a point.
-/
namespace Spec
open Sio Lcio

/-- The first of the least: `s` is at position `i` of the list, no element has a smaller value, and those before it have larger values. -/
structure FirstLeast {α : Type} (f : α → Int) (l : List α) (i : Nat) (s : α) : Prop where
  here : l[i]? = some s
  least : ∀ t ∈ l, f s ≤ f t
  first : ∀ (j : Nat) t, j < i → l[j]? = some t → f s < f t

end Spec
