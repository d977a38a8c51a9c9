import Verif.Lcio.WriterUse
/-
Specification vocabulary: what the files should hold after some calls of the functions of a writer.
-/
namespace Spec
open Sio Lcio

/-- What has been written: for each file that exists the sessions in which it was written; the name of the file that is open, with what has been written since it was opened; whether
records are compressed. -/
structure Books where
  files : Str → Option (List Session)
  current : Option (Str × List Put) := none
  compress : Bool := true

/-- Something was written in these sessions. -/
def Filled (ss : List Session) : Bool := !(allPuts ss).isEmpty

/-- What a call should do. A file that exists cannot be created; one that does not exist, or in which there is nothing, cannot be opened to append to it; nothing is written if no file is
open; closing without an open file does nothing. When a file is open no other one can be opened (there is no claim for this case). -/
def Books.step (b : Books) : WCall → Except Err Unit × Books
  | .create name => match b.files (getSIOFileName name) with
    | some _ => (.error .ioException, b)
    | none => (.ok (), { b with files := setFile b.files (getSIOFileName name) [], current := some (getSIOFileName name, []) })
  | .replace name => (.ok (), { b with files := setFile b.files (getSIOFileName name) [], current := some (getSIOFileName name, []) })
  | .append name => match b.files (getSIOFileName name) with
    | none => (.error .ioException, b)
    | some ss => if Filled ss then (.ok (), { b with current := some (getSIOFileName name, []) }) else (.error .ioException, b)
  | .level c => (.ok (), { b with compress := c })
  | .write p => match b.current with
    | none => (.error .ioException, b)
    | some (name, ps) => (.ok (), { b with current := some (name, ps ++ [p]) })
  | .flush => (.ok (), b)
  | .close => match b.current with
    | none => (.ok (), b)
    | some (name, ps) => (.ok (), { b with files := setFile b.files name ((b.files name).getD [] ++ [⟨b.compress, ps⟩]), current := none })

def Books.run : Books → List WCall → List (Except Err Unit) × Books
  | b, [] => ([], b)
  | b, c :: cs =>
    let r := b.step c
    let t := r.2.run cs
    (r.1 :: t.1, t.2)

/-- Calls that are made at the right time: files are opened, and the compression level is set, when no file is open. `MT::LCWriter` is closed when a file is open. -/
def Orderly (mt : Bool) : Books → List WCall → Prop
  | _, [] => True
  | b, c :: cs =>
    (match c with
      | .create _ | .replace _ | .append _ | .level _ => b.current = none
      | .close => mt = true → b.current ≠ none
      | _ => True) ∧ Orderly mt (b.step c).2 cs

/-- What is written. -/
def writes : List WCall → List Put
  | [] => []
  | .write p :: cs => p :: writes cs
  | _ :: cs => writes cs

/-- The files that are not open are as if each was made by a writer that is used for nothing else. -/
def FilesKept (codec : Codec) (std : Std Pid) (disk : Str → Option (List Byte)) (b : Books) : Prop :=
  ∀ name, b.current.map (·.1) ≠ some name → match b.files name with
    | none => disk name = none
    | some ss => ∃ bytes, disk name = some bytes ∧ fileAfter codec std ss = .ok (some bytes) ∧ (SessionsOk codec std ss ∨ ∃ compress, ss = [⟨compress, []⟩])

end Spec
