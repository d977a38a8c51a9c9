import Verif.Spec.Sessions
/-
Specification vocabulary: a writer that does not come to the end of its session.
-/
namespace Spec
open Sio Lcio

/-- What is in a file if only the first `n` bytes of its new content reached it: the rest is what was there before. (A writer that appends does not make
the file shorter before it writes.) -/
def crashed (old : Option (List Byte)) (new : List Byte) (n : Nat) : List Byte := new.take n ++ (old.getD []).drop n

/-- The writer in a session after the first `n` things have been written. -/
def Session.after (codec : Codec) (std : Std Pid) (w : Writer) (file : Option (List Byte)) (s : Session) (n : Nat) : Except Err Writer := do
  let w ← match file with
    | none => w.openNew
    | some bytes => w.openAppend codec (some bytes)
  putAll codec std s.compress w (s.puts.take n)

/-- How far a writer has come in its file. -/
def reached (w : Writer) : Nat := match w.stream with
  | none => 0
  | some s => s.pos

/-- What is found when the event map of a file without index is made: the run header or event that comes directly after a run header, after which the
search goes on. -/
def found : List Put → List Put
  | [] => []
  | .event _ _ _ :: ps => found ps
  | [.run _ _] => []
  | .run _ _ :: p :: ps => p :: found ps

end Spec
