import Verif.Util.Flags
/-
Specification vocabulary: operations on flag words.
-/
namespace Spec
open Sio Util

inductive FlagOp where
  | set (bit : Int)
  | unset (bit : Int)

def FlagOp.bit : FlagOp → Int
  | .set b => b
  | .unset b => b

/-- Calls of `setBit` and `unsetBit` one after the other. -/
def flagRun : W32 → List FlagOp → Except Err W32
  | f, [] => .ok f
  | f, .set b :: ops => match flagSetBit f b with
    | .error e => .error e
    | .ok f => flagRun f ops
  | f, .unset b :: ops => match flagUnsetBit f b with
    | .error e => .error e
    | .ok f => flagRun f ops

/-- Calls of `set_bit` and `unset_bit` one after the other. -/
def bitRun : W32 → List FlagOp → Except Err W32
  | f, [] => .ok f
  | f, .set b :: ops => match set_bit f b with
    | .error e => .error e
    | .ok f => bitRun f ops
  | f, .unset b :: ops => match unset_bit f b with
    | .error e => .error e
    | .ok f => bitRun f ops

/-- What the last operation on this bit did to it; none if there was none. -/
def lastOp (bit : Int) : List FlagOp → Option Bool
  | [] => none
  | op :: ops => match lastOp bit ops with
    | some b => some b
    | none => match op with
      | .set b => if b = bit then some true else none
      | .unset b => if b = bit then some false else none

end Spec
