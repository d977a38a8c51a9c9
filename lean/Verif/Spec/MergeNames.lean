import Verif.Spec.Merge
/-
The name of the file that is written.
-/
namespace Spec
open Sio Lcio

/-- The name of the file that is written if some name is given: with the extension `.slcio`. -/
def IsOutput (given name : Str) : Prop :=
  ((∃ base, given = base ++ str ".slcio") ∧ name = given) ∨ ((¬ ∃ base, given = base ++ str ".slcio") ∧ name = given ++ str ".slcio")

end Spec
