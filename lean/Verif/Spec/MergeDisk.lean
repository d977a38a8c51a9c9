import Verif.Spec.Merge
/-
What a reader finds in a file that is not complete.
-/
namespace Spec
open Sio Lcio

/-- What a reader gets from a file with the first `m` of some things: these things, then null or an exception. -/
def HasFirst (cfg : RConfig) (name : Str) (bytes : List Byte) (ds : List Delivery) (m : Nat) : Prop :=
  ∃ r, Reader.openFiles cfg false [(name, bytes)] = (.ok (), r) ∧
    ∀ gs, gets cfg gs r = .ok (inTurn gs (ds.take m)) ∨
      (none ∈ inTurn gs (ds.take m) ∧ ∃ e, gets cfg gs r = .error e ∧ (e = .noMarker ∨ e = .badState ∨ e = .ioFailure))

end Spec
