import Verif.Lcio.Writer
import Verif.Util.Text
import Verif.Spec.Sessions
/-
`LCSplitWriter`: a writer that distributes what is written over several files.
-/
namespace Util
open Sio Lcio Spec

/-- `UTIL::LCSplitWriter`, src/cpp/include/UTIL/LCSplitWriter.h:18-136, with the `SIOWriter` it uses (`wrt`), the name of the file that writer has open
(`current`, only meaningful while it is open) and the other files that exist (`disk`). Two names are the same file only if they are equal. -/
structure SplitWriter where
  maxBytes : Int
  base : Str := []
  filename : Str := []
  extension : Str := []
  count : W32 := 0
  lastCount : W32 := 4294967295
  wrt : Writer := {}
  current : Str := []
  disk : List (Str × List Byte) := []

/-- `stat` of a name: the size of the file, none if there is none. What has been written to an open file is in it: the callers call `flush` before. -/
def SplitWriter.stat (s : SplitWriter) (name : Str) : Option Nat :=
  match s.wrt.stream with
  | some o => if s.current = name then some o.bytes.length else (s.disk.lookup name).map (·.length)
  | none => (s.disk.lookup name).map (·.length)

/-- `getCountingString`, src/cpp/src/UTIL/LCSplitWriter.cc:146-156: `setw(3)` and `setfill('0')`. -/
def countingString (count : W32) : Str := List.replicate (3 - (dec count.toNat).length) 48 ++ dec count.toNat

/-- `getFilename`, LCSplitWriter.cc:85-93: the name is in `filename` of the result. -/
def SplitWriter.getFilename (s : SplitWriter) : SplitWriter :=
  if s.count ≠ s.lastCount then
    { s with filename := s.base ++ str "." ++ countingString s.count ++ s.extension, lastCount := s.count }
  else s

/-- `file_size`, LCSplitWriter.cc:97-107. -/
def SplitWriter.fileSizeOf (s : SplitWriter) (name : Str) : Int :=
  match s.stat name with
  | some n => n
  | none => -1

/-- `setBaseFilename`, LCSplitWriter.cc:124-144; `dotPos` has 32 bits, the length of the name 64. -/
def SplitWriter.setBaseFilename (s : SplitWriter) (name : Str) : Except Err SplitWriter :=
  let dotPos : W32 := match rfind (str ".") name with
    | some i => BitVec.ofNat 32 i
    | none => BitVec.ofNat 32 (2 ^ 64 - 1)
  let lcioPos : W64 := match rfind (str "lcio") name with
    | some i => BitVec.ofNat 64 i
    | none => BitVec.ofNat 64 (2 ^ 64 - 1)
  if 0 < dotPos.toNat ∧ dotPos.setWidth 64 = BitVec.ofNat 64 name.length - 6 ∧ lcioPos = (dotPos + 2).setWidth 64 then
    .ok { s with base := name.take (name.length - 6), extension := name.drop (name.length - 6) }
  else .error .lcException

/-- `_wrt->open(filename)`: `SIOWriter::open`, src/cpp/src/SIO/SIOWriter.cc:20-32. -/
def SplitWriter.openFile (s : SplitWriter) : Except Err Unit × SplitWriter :=
  let name := getSIOFileName s.filename
  match s.stat name with
  | some _ => (.error .ioException, s)
  | none => match s.wrt.openNew with
    | .error e => (.error e, s)
    | .ok w => (.ok (), { s with wrt := w, current := name })

/-- `close`, LCSplitWriter.cc:69-71. -/
def SplitWriter.close (s : SplitWriter) : Except Err Unit × SplitWriter :=
  match s.wrt.close with
  | .error e => (.error e, s)
  | .ok (w, none) => (.ok (), { s with wrt := w })
  | .ok (w, some bytes) => (.ok (), { s with wrt := w, disk := s.disk ++ [(s.current, bytes)] })

/-- `open`, LCSplitWriter.cc:31-35. -/
def SplitWriter.open (s : SplitWriter) (name : Str) : Except Err Unit × SplitWriter :=
  match { s with count := 0 }.setBaseFilename name with
  | .error e => (.error e, { s with count := 0 })
  | .ok s => s.getFilename.openFile

/-- The first part of `writeRunHeader` and of `writeEvent`, LCSplitWriter.cc:44-49 and 56-67: start the next file if the current one is too large. -/
def SplitWriter.next (s : SplitWriter) : Except Err Unit × SplitWriter :=
  let s := s.getFilename
  if s.maxBytes < s.fileSizeOf s.filename then
    match s.close with
    | (.error e, s) => (.error e, s)
    | (.ok (), s) => { s with count := s.count + 1 }.getFilename.openFile
  else (.ok (), s)

/-- `writeRunHeader`, LCSplitWriter.cc:42-52. -/
def SplitWriter.writeRunHeader (codec : Codec) (compress : Bool) (buf : List Byte) (h : RunHeader) (s : SplitWriter) : Except Err Unit × SplitWriter :=
  match s.next with
  | (.error e, s) => (.error e, s)
  | (.ok (), s) => match s.wrt.writeRunHeader codec compress buf h with
    | (r, w) => (r, { s with wrt := w })

/-- `writeEvent`, LCSplitWriter.cc:54-67. -/
def SplitWriter.writeEvent (codec : Codec) (std : Std Pid) (compress : Bool) (buf buf' : List Byte) (h : EventHeader) (cols : List (Str × Collection))
    (s : SplitWriter) : Except Err Unit × SplitWriter :=
  match s.next with
  | (.error e, s) => (.error e, s)
  | (.ok (), s) => match s.wrt.writeEvent codec std compress buf buf' h cols with
    | (r, w) => (r, { s with wrt := w })

/-- The call for something to be written. -/
def SplitWriter.put (codec : Codec) (std : Std Pid) (compress : Bool) (s : SplitWriter) : Put → Except Err Unit × SplitWriter
  | .run h buf => s.writeRunHeader codec compress buf h
  | .event h cols buf => s.writeEvent codec std compress buf.1 buf.2 h cols

end Util
