import Verif.Lcio.RandomAccess
import Verif.Lcio.Event
import Verif.Spec.File
/-
The writer: sessions that create a file or append to one.
-/
namespace Lcio
open Sio Spec

/-- `LCSIO::FileExtension`, src/cpp/include/SIO/LCSIO.h:20. -/
def fileExtension : Str := str ".slcio"

/-- `SIOWriter::getSIOFileName`, src/cpp/src/SIO/SIOWriter.cc:39-47. -/
def getSIOFileName (filename : Str) : Str :=
  match rfind fileExtension filename with
  | none => filename ++ fileExtension
  | some i => if i + fileExtension.length = filename.length then filename else filename ++ fileExtension

/-- `SIO::SIOWriter`, src/cpp/include/SIO/SIOWriter.h: the stream if it is open, and the random access manager. Whether the compression level
is different from 0 is an argument of the functions below, as is the content of the raw buffer when they are called. Writing to
the stream always succeeds. -/
structure Writer where
  stream : Option OStream := none
  ra : RaMgr := {}

/-- `SIOWriter::open(filename, WRITE_NEW)`, SIOWriter.cc:51-58 and 90-92. Opening a stream that is open fails. -/
def Writer.openNew (w : Writer) : Except Err Writer :=
  match w.stream with
  | some _ => .error .notOpen
  | none => .ok { w with stream := some { bytes := [] } }

/-- `SIOWriter::open(filename, WRITE_APPEND)`, SIOWriter.cc:59-92, of a file with some content, or that does not exist. Without random access
record at its end the file is opened with `binary|out|ate`, which makes it empty. -/
def Writer.openAppend (codec : Codec) (w : Writer) (file : Option (List Byte)) : Except Err Writer :=
  match file with
  | none => .error .ioException
  | some bytes => match w.ra.initAppend codec { bytes := bytes } with
    | (.error e, _, _) => .error e
    | (.ok hasRandomAccess, _, ra) => match w.stream with
      | some _ => .error .notOpen
      | none =>
        if hasRandomAccess then
          if bytes.length < randomAccessSize then .error .ioException
          else .ok { stream := some { bytes := bytes, pos := bytes.length - randomAccessSize }, ra := ra }
        else .ok { stream := some { bytes := [] }, ra := ra }

/-- `SIOWriter::writeRunHeader`, SIOWriter.cc:105-121. The second component is the writer afterwards, also if an exception is thrown. -/
def Writer.writeRunHeader (codec : Codec) (compress : Bool) (buf : List Byte) (h : RunHeader) (w : Writer) : Except Err Unit × Writer :=
  match w.stream with
  | none => (.error .ioException, w)
  | some s => match writeJob codec buf s ⟨runRecordName, 0, [h.block], compress⟩ with
    | .error e => (.error e, w)
    | .ok (info, _, s) => (.ok (), { stream := some s, ra := w.ra.add ⟨h.run, -1⟩ info.fileStart })

/-- `SIOWriter::writeEvent`, SIOWriter.cc:125-155. -/
def Writer.writeEvent (codec : Codec) (std : Std Pid) (compress : Bool) (buf buf' : List Byte) (h : EventHeader) (cols : List (Str × Collection))
    (w : Writer) : Except Err Unit × Writer :=
  match w.stream with
  | none => (.error .ioException, w)
  | some s => match writeJob codec buf s ⟨headerRecordName, 0, [EventHeader.block [] { h with cols := colHeads cols }], compress⟩ with
    | .error e => (.error e, w)
    | .ok (info, _, s) =>
      let w := { stream := some s, ra := w.ra.add ⟨h.run, h.evt⟩ info.fileStart }
      match writeJob codec buf' s ⟨eventRecordName, 0, eventBlocks std [] cols, compress⟩ with
      | .error e => (.error e, w)
      | .ok (_, _, s) => (.ok (), { w with stream := some s })

/-- `SIOWriter::close`, SIOWriter.cc:159-163: the writer afterwards, and what is in the file (if a stream was open). -/
def Writer.close (w : Writer) : Except Err (Writer × Option (List Byte)) :=
  match w.stream with
  | none => if w.ra.map.map.isEmpty then .ok ({ w with ra := w.ra.clear }, none) else .error .ioException
  | some s => match w.ra.writeRandomAccessRecords s with
    | .error e => .error e
    | .ok (s, ra) => .ok ({ stream := none, ra := ra.clear }, some s.bytes)

end Lcio
