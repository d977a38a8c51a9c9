import Verif.Spec.Copy
/-
Specification of copies of copies: an event that was loaded is stored and loaded again and again.
-/
namespace Spec
open Sio Lcio

/-- An event that was loaded is stored and loaded again, as often as there are elements in the list: these are the buffers and options that are used for storing, and the
first address for what is loaded. -/
def generations (std : Std Pid) (ignoreNull : Bool) : List ((Str × Str) × W32 × Nat) → EventHeader × List (Str × Collection) → Except Err (EventHeader × List (Str × Collection))
  | [], e => .ok e
  | (buf, opts, next) :: gs, e => match storeLoadEvent std ignoreNull [] [] buf opts next e.1 (resolved e.2) with
    | .error x => .error x
    | .ok e' => generations std ignoreNull gs e'

end Spec
