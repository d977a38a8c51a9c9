import Verif.Spec.Sessions
/-
A writer that is used for several files, with calls in any order: `SIO::SIOWriter` and `MT::LCWriter`.
-/
namespace Lcio
open Sio Spec

/-- A call of a function of a writer. -/
inductive WCall where
  /-- `open(name)` -/
  | create (name : Str)
  /-- `open(name, LCIO::WRITE_NEW)` -/
  | replace (name : Str)
  /-- `open(name, LCIO::WRITE_APPEND)` -/
  | append (name : Str)
  /-- `setCompressionLevel`: whether the level is different from 0 -/
  | level (compress : Bool)
  /-- `writeRunHeader` or `writeEvent` -/
  | write (p : Put)
  | flush
  | close

/-- A writer and the files: the stream and random access manager; the file that belongs to the stream if it is open; whether the stream is in a good state; for
`MT::LCWriter` whether the pointer to the random access manager is null; whether records are compressed. Two names are the same file only if they are equal. -/
structure WriterUse where
  wrt : Writer := {}
  name : Str := []
  good : Bool := true
  null : Bool := true
  compress : Bool := true
  disk : Str → Option (List Byte)

/-- A new content for a file. -/
def setFile {α : Type} (disk : Str → Option α) (name : Str) (a : α) : Str → Option α := fun n => if n = name then some a else disk n

/-- `open(filename, WRITE_NEW)`: src/cpp/src/SIO/SIOWriter.cc:51-58 and 90-92, src/cpp/src/MT/LCWriter.cc:37-45 and 77-79. `std::ofstream::open` fails if the stream is open, and
sets `failbit`; otherwise it clears the state. A file can always be created. -/
def WriterUse.openNew (s : WriterUse) (file : Str) : Except Err Unit × WriterUse :=
  match s.wrt.stream with
  | some _ => (.error .notOpen, { s with good := false })
  | none => (.ok (), { s with wrt := { s.wrt with stream := some { bytes := [] } }, name := file, good := true, disk := setFile s.disk file [] })

/-- `open(filename, WRITE_APPEND)`: SIOWriter.cc:59-92, LCWriter.cc:46-79. If the stream is open `tellp` returns -1 after the attempt to open it again. A file that does not end with a random
access record is opened with `binary|out|ate`, which makes it empty. -/
def WriterUse.openAppend (codec : Codec) (s : WriterUse) (file : Str) : Except Err Unit × WriterUse :=
  match s.disk file with
  | none => (.error .ioException, s)
  | some bytes => match s.wrt.ra.initAppend codec { bytes := bytes } with
    | (.error e, _, ra) => (.error e, { s with wrt := { s.wrt with ra := ra } })
    | (.ok hasRandomAccess, _, ra) => match s.wrt.stream with
      | some _ => (.error (if hasRandomAccess then .ioException else .notOpen), { s with wrt := { s.wrt with ra := ra }, good := false })
      | none =>
        if hasRandomAccess then
          let s := { s with wrt := { stream := some { bytes := bytes, pos := bytes.length - randomAccessSize }, ra := ra }, name := file, good := true }
          if bytes.length < randomAccessSize then (.error .ioException, s) else (.ok (), s)
        else (.ok (), { s with wrt := { stream := some { bytes := [] }, ra := ra }, name := file, good := true, disk := setFile s.disk file [] })

/-- `MT::LCWriter::open` makes a new random access manager first, LCWriter.cc:41. -/
def WriterUse.fresh (mt : Bool) (s : WriterUse) : WriterUse := if mt then { s with wrt := { s.wrt with ra := {} }, null := false } else s

/-- `writeRunHeader` and `writeEvent`: SIOWriter.cc:105-155, LCWriter.cc:90-198, `sio::api::write_record` (sio/src/api.cc:508-577), which flushes the stream after each record. Simplified: if
the stream is in a bad state nothing else can go wrong before that is noticed; `MT::LCWriter` writes both records of an event before it adds it to the map, and does not add it if the
second one cannot be written. -/
def WriterUse.write (codec : Codec) (std : Std Pid) (mt : Bool) (s : WriterUse) (p : Put) : Except Err Unit × WriterUse :=
  match s.wrt.stream with
  | none => (.error .ioException, s)
  | some _ =>
    if !s.good then (.error .badState, s)
    else if mt && s.null then (.error .ub, s)
    else match p.call codec std s.compress s.wrt with
      | (r, w) => (r, { s with wrt := w, disk := setFile s.disk s.name ((w.stream.map (·.bytes)).getD []) })

/-- `close`: SIOWriter.cc:159-163, LCWriter.cc:202-208 and `writeRandomAccessRecords`, src/cpp/src/SIO/LCIORandomAccessMgr.cc:289-343. Closing a stream that is not open sets `failbit`. -/
def WriterUse.close (mt : Bool) (s : WriterUse) : Except Err Unit × WriterUse :=
  if mt && s.null then (.error .ub, s)
  else match s.wrt.stream with
    | none =>
      if s.wrt.ra.map.map.isEmpty then (.ok (), { s with wrt := { s.wrt with ra := s.wrt.ra.clear }, good := false, null := true })
      else (.error .ioException, s)
    | some _ =>
      if !s.good && !s.wrt.ra.map.map.isEmpty then (.error .badState, s)
      else match s.wrt.close with
        | .error e => (.error e, s)
        | .ok (w, bytes) => (.ok (), { s with wrt := w, null := true, disk := setFile s.disk s.name (bytes.getD []) })

/-- A call. `open(filename)` throws if the file exists, SIOWriter.cc:20-35, LCWriter.cc:21-33. `setCompressionLevel`: SIOWriter.cc:99-101, LCWriter.cc:84-86. `flush`: SIOWriter.cc:167-169; the
stream is always flushed. (`MT::LCWriter` has no `flush`.) -/
def WriterUse.step (codec : Codec) (std : Std Pid) (mt : Bool) (s : WriterUse) : WCall → Except Err Unit × WriterUse
  | .create name => if (s.disk (getSIOFileName name)).isSome then (.error .ioException, s) else (s.fresh mt).openNew (getSIOFileName name)
  | .replace name => (s.fresh mt).openNew (getSIOFileName name)
  | .append name => (s.fresh mt).openAppend codec (getSIOFileName name)
  | .level c => (.ok (), { s with compress := c })
  | .write p => s.write codec std mt p
  | .flush => (.ok (), s)
  | .close => s.close mt

/-- Calls one after the other, whose exceptions are caught: their results, and what is there at the end. -/
def WriterUse.run (codec : Codec) (std : Std Pid) (mt : Bool) : WriterUse → List WCall → List (Except Err Unit) × WriterUse
  | s, [] => ([], s)
  | s, c :: cs =>
    let r := s.step codec std mt c
    let t := r.2.run codec std mt cs
    (r.1 :: t.1, t.2)

end Lcio
