import Verif.Lcio.MtWriter
import Verif.Spec.Sessions
/-
Specification vocabulary: a writer used by several threads.
-/
namespace Spec
open Sio Lcio

/-- The same call on a sequential writer, when the buffers have `n` bytes. -/
def _root_.Lcio.MtCall.put (n : Nat) : MtCall → Put
  | .run h => .run h (zeros n)
  | .event h cols => .event h cols (zeros n, zeros n)

/-- Sequential calls one after the other, each with or without compression. -/
def putEach (codec : Codec) (std : Std Pid) : Writer → List (Bool × Put) → Except Err Writer
  | w, [] => .ok w
  | w, p :: ps => match p.2.call codec std p.1 w with
    | (.error e, _) => .error e
    | (.ok (), w) => putEach codec std w ps

/-- One call in a sequential order: which thread makes it, the call, the size of the buffers and whether the records are compressed. -/
structure Turn where
  thread : Nat
  call : MtCall
  size : Nat
  compress : Bool

def Turn.put (u : Turn) : Bool × Put := (u.compress, u.call.put u.size)

/-- The calls of one thread. -/
def turnsOf (t : Nat) (order : List Turn) : List MtCall := (order.filter fun u => u.thread == t).map (·.call)

/-- A writer with an open file, that threads are going to use. -/
def mtStart (w : Writer) (prog : Nat → List MtCall) (maxBuf : Nat) (level : Int) : MtState :=
  { stream := w.stream, ra := some w.ra, maxBuf := maxBuf, level := level, threads := fun t => { todo := prog t } }

/-- All threads are done. -/
def Done (s : MtState) : Prop := ∀ t, (s.threads t).todo = [] ∧ (s.threads t).phase = .idle

/-- The calls of a thread that returned without exception. -/
def succeeded (th : MtThread) : List MtCall := (th.results.filter fun r => r.2.isOk).map (·.1)

end Spec
