import Verif.Lcio.Writer
import Verif.Spec.Sessions
/-
The writer on a disk that becomes full: the file cannot become longer than some limit.
-/
namespace Lcio
open Sio Spec

/-- `std::ofstream` on a disk that becomes full: the stream, the largest length the file can have, and whether `good()`. The bytes go to the file at once: the buffer of a `std::ofstream` only delays
the failure to the `flush()` at the end of `api::write_record` (sio/src/api.cc:532, 572), which throws the same. -/
structure LimStream where
  s : OStream
  limit : Nat
  good : Bool := true

/-- `std::ostream::write`: nothing if the stream is not good; what fits if not everything does. -/
def LimStream.write (t : LimStream) (b : List Byte) : LimStream :=
  if !t.good then t
  else if t.s.pos + b.length ≤ t.limit then { t with s := t.s.write b }
  else { t with s := t.s.write (b.take (t.limit - t.s.pos)), good := false }

/-- The padding and the end of both functions `api::write_record`, sio/src/api.cc:523-535 and 563-575. -/
def limPad (t : LimStream) (n start : Nat) (info : RecordInfo) : Except Err RecordInfo × LimStream :=
  let padlen := padBytes n
  let t := if padlen > 0 then t.write (zeros padlen) else t
  if !t.good then (.error .ioFailure, t) else (.ok { info with fileStart := start, fileEnd := t.s.pos }, t)

/-- `api::write_record(stream, rec_buf, rec_info)`, sio/src/api.cc:508-537, on an open stream and a valid span. -/
def limWriteRecordTo (t : LimStream) (rec : List Byte) (info : RecordInfo) : Except Err RecordInfo × LimStream :=
  if !t.good then (.error .badState, t)
  else
    let start := t.s.pos
    let t := t.write rec
    if !t.good then (.error .ioFailure, t) else limPad t rec.length start info

/-- `api::write_record(stream, hdr_span, data_span, rec_info)`, sio/src/api.cc:541-577, on an open stream and valid spans. -/
def limWriteRecordTo2 (t : LimStream) (hdr data : List Byte) (info : RecordInfo) : Except Err RecordInfo × LimStream :=
  if !t.good then (.error .badState, t)
  else
    let start := t.s.pos
    let t := t.write hdr
    if !t.good then (.error .ioFailure, t)
    else
      let t := t.write data
      if !t.good then (.error .ioFailure, t) else limPad t data.length start info

/-- Writing one record, as `writeJob`. -/
def limWriteJob (codec : Codec) (buf : List Byte) (t : LimStream) (j : Job) : Except Err RecordInfo × LimStream :=
  match writeRecord j.name buf j.blocks j.opts with
  | .error e => (.error e, t)
  | .ok (info, rec) =>
    if j.compress then
      match compressRecord codec info rec with
      | .error e => (.error e, t)
      | .ok (info, rec, comp) => match spanOf rec 0 info.headerLength with
        | .error e => (.error e, t)
        | .ok hdr => limWriteRecordTo2 t hdr comp info
    else limWriteRecordTo t rec info

/-- `SIO::SIOWriter`, as `Writer`. -/
structure LimWriter where
  stream : Option LimStream := none
  ra : RaMgr := {}

/-- `SIOWriter::open(filename, WRITE_NEW)`, SIOWriter.cc:51-58 and 90-92, on a disk with room for some bytes. Opening a stream that is open fails and sets `failbit`. -/
def LimWriter.openNew (limit : Nat) (w : LimWriter) : Except Err Unit × LimWriter :=
  match w.stream with
  | some t => (.error .notOpen, { w with stream := some { t with good := false } })
  | none => (.ok (), { w with stream := some { s := { bytes := [] }, limit := limit } })

/-- `SIOWriter::open(filename, WRITE_APPEND)`, SIOWriter.cc:59-92, with a writer that is not open: see `Writer.openAppend`. The bytes that are in the file can be overwritten on a full disk. -/
def LimWriter.openAppend (codec : Codec) (limit : Nat) (ra : RaMgr) (bytes : List Byte) : Except Err LimWriter :=
  match ({ ra := ra } : Writer).openAppend codec (some bytes) with
  | .error e => .error e
  | .ok w => .ok { stream := w.stream.map fun s => { s := s, limit := limit }, ra := w.ra }

/-- `SIOWriter::writeRunHeader`, SIOWriter.cc:105-121. -/
def LimWriter.writeRunHeader (codec : Codec) (compress : Bool) (buf : List Byte) (h : RunHeader) (w : LimWriter) : Except Err Unit × LimWriter :=
  match w.stream with
  | none => (.error .ioException, w)
  | some t => match limWriteJob codec buf t ⟨runRecordName, 0, [h.block], compress⟩ with
    | (.error e, t) => (.error e, { w with stream := some t })
    | (.ok info, t) => (.ok (), { stream := some t, ra := w.ra.add ⟨h.run, -1⟩ info.fileStart })

/-- `SIOWriter::writeEvent`, SIOWriter.cc:125-155. -/
def LimWriter.writeEvent (codec : Codec) (std : Std Pid) (compress : Bool) (buf buf' : List Byte) (h : EventHeader) (cols : List (Str × Collection)) (w : LimWriter) : Except Err Unit × LimWriter :=
  match w.stream with
  | none => (.error .ioException, w)
  | some t => match limWriteJob codec buf t ⟨headerRecordName, 0, [EventHeader.block [] { h with cols := colHeads cols }], compress⟩ with
    | (.error e, t) => (.error e, { w with stream := some t })
    | (.ok info, t) =>
      let ra := w.ra.add ⟨h.run, h.evt⟩ info.fileStart
      match limWriteJob codec buf' t ⟨eventRecordName, 0, eventBlocks std [] cols, compress⟩ with
      | (.error e, t) => (.error e, { stream := some t, ra := ra })
      | (.ok _, t) => (.ok (), { stream := some t, ra := ra })

/-- One of the three records of `writeRandomAccessRecords`. -/
def RaMgr.limWriteOne (m : RaMgr) (t : LimStream) (name : Str) (b : WBlock) : Except Err RecordInfo × LimStream × RaMgr :=
  match writeRecord name m.buf [b] 0 with
  | .error e => (.error e, t, m)
  | .ok (info, bytes) =>
    let r := limWriteRecordTo t bytes info
    (r.1, r.2, { m with buf := bytes })

/-- `writeRandomAccessRecords`, LCIORandomAccessMgr.cc:289-343, on an open stream. -/
def RaMgr.limWriteRandomAccessRecords (m : RaMgr) (t : LimStream) : Except Err Unit × LimStream × RaMgr :=
  if m.map.map.isEmpty then (.ok (), t, m)
  else match m.limWriteOne t indexName m.map.block with
    | (.error e, t, m) => (.error e, t, m)
    | (.ok info, t, m) =>
      let thisPos : W64 := BitVec.ofNat 64 t.s.pos
      let ra := { m.createFromEventMap with
        indexLoc := BitVec.ofNat 64 info.fileStart
        firstLoc := thisPos
        prevLoc := ((m.list.getLast?).map (·.firstLoc)).getD 0 }
      let m := { m with list := m.list ++ [ra] }
      match m.limWriteOne t accessName ra.block with
      | (.error e, t, m) => (.error e, t, m)
      | (.ok _, t, m) =>
        let f := m.createFileRecord
        let f := { f with
          nextLoc := if f.nextLoc.slt thisPos then thisPos else f.nextLoc
          prevLoc := if thisPos.slt f.prevLoc then thisPos else f.prevLoc }
        match { m with file := some f }.limWriteOne t accessName f.block with
        | (.error e, t, m) => (.error e, t, m)
        | (.ok _, t, m) => (.ok (), t, m)

/-- `SIOWriter::close`, SIOWriter.cc:159-163: the stream is only closed if the records could be written. The last component is what is in the file, if a stream was open. -/
def LimWriter.close (w : LimWriter) : Except Err Unit × LimWriter × Option (List Byte) :=
  match w.stream with
  | none => if w.ra.map.map.isEmpty then (.ok (), { w with ra := w.ra.clear }, none) else (.error .ioException, w, none)
  | some t => match w.ra.limWriteRandomAccessRecords t with
    | (.error e, t, ra) => (.error e, { stream := some t, ra := ra }, some t.s.bytes)
    | (.ok (), t, ra) => (.ok (), { stream := none, ra := ra.clear }, some t.s.bytes)

/-- The call for something that is put in. -/
def LimWriter.put (codec : Codec) (std : Std Pid) (compress : Bool) (w : LimWriter) : Put → Except Err Unit × LimWriter
  | .run h buf => w.writeRunHeader codec compress buf h
  | .event h cols buf => w.writeEvent codec std compress buf.1 buf.2 h cols

/-- Calls one after the other by a program that goes on after exceptions: what the calls return, and the writer. -/
def LimWriter.putAll (codec : Codec) (std : Std Pid) (compress : Bool) : LimWriter → List Put → List (Except Err Unit) × LimWriter
  | w, [] => ([], w)
  | w, p :: ps =>
    let r := w.put codec std compress p
    let rest := LimWriter.putAll codec std compress r.2 ps
    (r.1 :: rest.1, rest.2)

/-- A session with a writer that is not open, on a file that may exist, and that cannot become longer than some limit: open it (for append if it exists, otherwise as new file), write, close. The results are
what the calls for writing return, what `close` returns, the writer, and what is in the file. -/
def sessionOnDisk (codec : Codec) (std : Std Pid) (limit : Nat) (ra : RaMgr) (file : Option (List Byte)) (s : Session) :
    Except Err (List (Except Err Unit) × Except Err Unit × LimWriter × Option (List Byte)) :=
  let opened : Except Err LimWriter := match file with
    | none => match ({ ra := ra } : LimWriter).openNew limit with
      | (.error e, _) => .error e
      | (.ok (), w) => .ok w
    | some bytes => LimWriter.openAppend codec limit ra bytes
  match opened with
  | .error e => .error e
  | .ok w =>
    let r := w.putAll codec std s.compress s.puts
    let c := r.2.close
    .ok (r.1, c.1, c.2.1, c.2.2)

/-- Calls of a program that goes on with the same writer: `open(filename, WRITE_NEW)` of a file on a disk with some room, writing, `close`. -/
inductive LimCall where
  | openNew (limit : Nat)
  | put (compress : Bool) (p : Put)
  | close

/-- What one of them returns, and the writer. -/
def LimWriter.step (codec : Codec) (std : Std Pid) (w : LimWriter) : LimCall → Except Err Unit × LimWriter
  | .openNew limit => w.openNew limit
  | .put compress p => w.put codec std compress p
  | .close => (w.close.1, w.close.2.1)

/-- What some of them return. -/
def LimWriter.steps (codec : Codec) (std : Std Pid) : LimWriter → List LimCall → List (Except Err Unit)
  | _, [] => []
  | w, c :: cs => (w.step codec std c).1 :: LimWriter.steps codec std (w.step codec std c).2 cs

end Lcio
