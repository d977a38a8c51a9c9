import Verif.Util.ParamMap
/-
Maps in the parameters of collections.
-/
namespace Spec
open Sio Lcio Util

/-- What edits do with a map. -/
def edited (f : Str → Option W32) : List MapEdit → Str → Option W32
  | [] => f
  | .put k v :: es => edited (fun x => if x = k then some v else f x) es
  | .erase k :: es => edited (fun x => if x = k then none else f x) es

/-- The list of the entries of a map, by their names. -/
def MapLists (m : List (Str × W32)) (f : Str → Option W32) : Prop :=
  m.Pairwise (fun a b => strLt a.1 b.1 = true) ∧ ∀ k v, (k, v) ∈ m ↔ f k = some v

/-- The maps that one mapsFound when a map is edited by one handle after the other: those of `const` collections (`true`) do not change anything. -/
def mapsFound (f : Str → Option W32) : List (Bool × List MapEdit) → List (Str → Option W32)
  | [] => []
  | (c, es) :: us => f :: mapsFound (if c then f else edited f es) us

/-- The map after that. -/
def mapAfter (f : Str → Option W32) : List (Bool × List MapEdit) → Str → Option W32
  | [] => f
  | (c, es) :: us => mapAfter (if c then f else edited f es) us

end Spec
