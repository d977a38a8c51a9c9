import Verif.Lcio.RunEventMap
/-
Specification of the run and event map.
-/
namespace Spec
open Sio Lcio

/-- An operation on the map. -/
inductive MapOp where
  | add (re : RunEvent) (pos : W64)
  | clear

/-- The map after some operations. -/
def build (ops : List MapOp) : RunEventMap :=
  ops.foldl (fun m op => match op with | .add re pos => m.add re pos | .clear => m.clear) {}

/-- The additions since the last `clear`, oldest first. -/
def additions (ops : List MapOp) : List (RunEvent × W64) :=
  ops.foldl (fun l op => match op with | .add re pos => l ++ [(re, pos)] | .clear => []) []

/-- The position of the last addition of a pair. -/
def lastPosition (l : List (RunEvent × W64)) (re : RunEvent) : Option W64 :=
  (l.reverse.find? fun x => x.1 == re).map (·.2)

/-- A list without repetitions. -/
def distinct {α : Type} [DecidableEq α] : List α → List α
  | [] => []
  | a :: l => if a ∈ l then distinct l else a :: distinct l

/-- Event numbers are at least -1, and -1 stands for a run header. -/
def regular (ops : List MapOp) : Prop := ∀ x ∈ additions ops, -1 ≤ x.1.evt.toInt

end Spec
