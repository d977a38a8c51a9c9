import Verif.Spec.Sessions
import Verif.Spec.Copy
/-
Specification of programs that read files with `readStream` and write what they get to another file.
-/
namespace Spec
open Sio Lcio

/-- Is this what `readNextEvent` (`readNextRunHeader`) returns? -/
def Get.gives : Get → Delivery → Bool
  | .event, .event _ => true
  | .run, .run _ => true
  | _, _ => false

/-- What calls of `readNextEvent` and `readNextRunHeader` return for a sequence of run headers and events: each the next thing of its kind, until
there is none and null is returned. -/
def inTurn : List Get → List Delivery → List (Option Delivery)
  | [], _ => []
  | g :: gs, ds => match ds.dropWhile fun d => !g.gives d with
    | [] => [none]
    | d :: rest => some d :: inTurn gs rest

/-- `d'` is a copy of `d` in the file named `out`: a run header with the same content, except that the parameter `LCIOFileName` is the name of the
file; or the same event. -/
def CopyIn (out : Str) : Delivery → Delivery → Prop
  | .run h, .run h' => h' = { h with params := { h.params with strs := (omAssign strLt (str "LCIOFileName") [out] h.params.strs).1 } }
  | .event e, .event e' => SameEvent e.1 e'.1 e.2 e'.2
  | _, _ => False

/-- The codec compresses all data with at most `limit` bytes, to something that fits in a record. -/
def CompressesUpTo (codec : Codec) (limit : Nat) : Prop :=
  ∀ data : List Byte, data.length ≤ limit → ∃ comp, codec.compress data = .ok comp ∧ comp.length + 64 < 2 ^ 32

/-- What is in a file named `file` can be written again: run headers, also with the name of the file in their parameters, and the records have at
most `limit` bytes (without their headers). -/
def Rewritable (limit : Nat) (std : Std Pid) (file : Str) : Put → Prop
  | .run h _ => ∀ h', (Put.run h []).loadedRun file = some h' → RunHeaderOk h' ∧ Writable runRecordName [h'.block] ∧ dataLen [h'.block] ≤ limit
  | .event h cols _ => dataLen [EventHeader.block [] { h with cols := colHeads cols }] ≤ limit ∧ dataLen (eventBlocks std [] cols) ≤ limit

end Spec
