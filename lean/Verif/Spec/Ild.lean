import Verif.Spec.Bits
/-
The fields of cell ids of ILD.
-/
namespace Spec
open Sio Lcio

/-- The fields that all cell ids of ILD have, and where they are: bits 0 to 31. -/
def ildFields : List LayoutEntry :=
  [⟨str "subdet", 0, 5, false⟩, ⟨str "side", 5, 2, true⟩, ⟨str "layer", 7, 9, false⟩, ⟨str "module", 16, 8, false⟩, ⟨str "sensor", 24, 8, false⟩]

end Spec
