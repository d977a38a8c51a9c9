import Verif.Sio.Stream
import Verif.Lcio.Headers
/-
The random access manager: reading and writing the records that make direct access possible.
-/
namespace Lcio
open Sio

/-- `SIO::LCIORandomAccessMgr`, src/cpp/include/SIO/LCIORandomAccessMgr.h:44-133: the event map, the list of random access objects, the
file record, and the raw buffer (its content is arbitrary). -/
structure RaMgr where
  map : RunEventMap := {}
  list : List RandomAccess := []
  file : Option RandomAccess := none
  buf : List Byte := []
  deriving Repr

/-- `clear`, src/cpp/src/SIO/LCIORandomAccessMgr.cc:23-27. -/
def RaMgr.clear (m : RaMgr) : RaMgr := { m with map := {}, list := [], file := none }

/-- `add`, LCIORandomAccessMgr.h:66-68. -/
def RaMgr.add (m : RaMgr) (re : RunEvent) (pos : Nat) : RaMgr := { m with map := m.map.add re (BitVec.ofNat 64 pos) }

/-- `createFromEventMap`, LCIORandomAccessMgr.cc:31-43. -/
def RaMgr.createFromEventMap (m : RaMgr) : RandomAccess :=
  { minRE := m.map.minRunEvent, maxRE := m.map.maxRunEvent, nRun := BitVec.ofNat 32 m.map.nRun, nEvt := BitVec.ofNat 32 m.map.nEvt,
    inOrder := 1, indexLoc := 0, prevLoc := 0, nextLoc := 0, firstLoc := 0 }

/-- The new file record of `createFileRecord`, LCIORandomAccessMgr.cc:48-60. -/
def newFileRecord : RandomAccess :=
  { minRE := ⟨2147483647, 2147483647⟩, maxRE := RunEvent.ofLong 0, nRun := 0, nEvt := 0, inOrder := 1, indexLoc := 0,
    prevLoc := 9223372036854775807, nextLoc := 0, firstLoc := 0 }

/-- The body of the loop of `createFileRecord`, LCIORandomAccessMgr.cc:62-75. `<` of two `RunEvent`s is the operator of
RunEventMap.cc:7-19; there is no `>`, so that both sides are converted to `long64` and compared as numbers. The sums are taken modulo 2^32. -/
def fileRecordStep (f ra : RandomAccess) : RandomAccess :=
  { f with
    minRE := if RunEvent.lt ra.minRE f.minRE then ra.minRE else f.minRE
    maxRE := if f.maxRE.toLong.slt ra.maxRE.toLong then ra.maxRE else f.maxRE
    nRun := f.nRun + ra.nRun
    nEvt := f.nEvt + ra.nEvt
    inOrder := f.inOrder * ra.inOrder
    indexLoc := 0
    nextLoc := if f.nextLoc.slt ra.nextLoc then ra.nextLoc else f.nextLoc
    prevLoc := if (0 : W64).slt ra.prevLoc && ra.prevLoc.slt f.prevLoc then ra.prevLoc else f.prevLoc }

/-- `createFileRecord`, LCIORandomAccessMgr.cc:47-76. -/
def RaMgr.createFileRecord (m : RaMgr) : RandomAccess := m.list.foldl fileRecordStep (m.file.getD newFileRecord)

/-- `seekStream`, LCIORandomAccessMgr.cc:347-369. If `failbit` is set `tellg` returns -1 and `seekg` does not move. -/
def seekStream (s : IStream) (pos : Int) : Except Err Unit × IStream :=
  if !s.isOpen then (.error .ioException, s)
  else if pos < 0 then
    if s.fail then (.error .ioException, { s with eof := false })
    else if (s.bytes.length : Int) < -pos then (.error .ioException, { s with eof := false, pos := s.bytes.length })
    else (.ok (), { s with eof := false, pos := (s.bytes.length + pos).toNat })
  else
    let s := s.seekg pos.toNat
    if !s.good then (.error .ioException, s) else (.ok (), s)

/-- `stream.clear()`. -/
def IStream.clear (s : IStream) : IStream := { s with eof := false, fail := false }

/-- Reading a record, and when that throws a `sio::exception` clearing the stream and going to its start,
LCIORandomAccessMgr.cc:95-105 and 138-149. -/
def RaMgr.readAny (m : RaMgr) (s : IStream) : Except Err (Option (RecordInfo × List Byte)) × IStream × RaMgr :=
  match readRecord s m.buf with
  | (.error .ub, s, buf) => (.error .ub, s, { m with buf := buf })
  | (.error _, s, buf) => match seekStream (IStream.clear s) 0 with
    | (.error e, s) => (.error e, s, { m with buf := buf })
    | (.ok (), s) => (.ok none, s, { m with buf := buf })
  | (.ok info, s, buf) => match spanOf buf info.headerLength info.dataLength with
    | .error e => (.error e, s, { m with buf := buf })
    | .ok data => (.ok (some (info, data)), s, { m with buf := buf })

/-- `readLCIORandomAccess`, LCIORandomAccessMgr.cc:93-121. A record without the expected block gives a default random access object
(src/cpp/src/SIO/SIORandomAccessHandler.cc:13-17). -/
def RaMgr.readAccess (m : RaMgr) (s : IStream) : Except Err Bool × IStream × RaMgr :=
  match m.readAny s with
  | (.error e, s, m) => (.error e, s, m)
  | (.ok none, s, m) => (.ok false, s, m)
  | (.ok (some (info, data)), s, m) =>
    if info.name ≠ accessName then (.ok false, s, m)
    else match readBlocks data [accessDecoder] with
      | .error e => (.error e, s, m)
      | .ok (rs, _, _) => (.ok true, s, { m with list := m.list ++ [((rs.getLast?).map (·.2)).getD {}] })

/-- `readLCIORandomAccessAt`, LCIORandomAccessMgr.cc:86-89. -/
def RaMgr.readAccessAt (m : RaMgr) (s : IStream) (pos : Int) : Except Err Bool × IStream × RaMgr :=
  match seekStream s pos with
  | (.error e, s) => (.error e, s, m)
  | (.ok (), s) => m.readAccess s

/-- The data of a record, uncompressed if necessary: LCIORandomAccessMgr.cc:159-169 and 243-252, src/cpp/src/MT/LCReader.cc:93-99 and
others. -/
def plainData (codec : Codec) (info : RecordInfo) (data : List Byte) : Except Err (List Byte) :=
  if isCompressed info.options then codec.uncompress data info.uncompressedLength else .ok data

/-- `readLCIOIndex`, LCIORandomAccessMgr.cc:135-171. -/
def RaMgr.readIndexRecord (codec : Codec) (m : RaMgr) (s : IStream) : Except Err Bool × IStream × RaMgr :=
  match m.readAny s with
  | (.error e, s, m) => (.error e, s, m)
  | (.ok none, s, m) => (.ok false, s, m)
  | (.ok (some (info, data)), s, m) =>
    if info.name ≠ indexName then (.ok false, s, m)
    else match plainData codec info data with
      | .error e => (.error e, s, m)
      | .ok data => match readBlocks data [indexDecoder] with
        | .error e => (.error e, s, m)
        | .ok (rs, _, _) => (.ok true, s, { m with map := m.map.addAll (rs.flatMap (·.2)) })

/-- `readLCIOIndexAt`, LCIORandomAccessMgr.cc:127-130. -/
def RaMgr.readIndexAt (codec : Codec) (m : RaMgr) (s : IStream) (pos : Int) : Except Err Bool × IStream × RaMgr :=
  match seekStream s pos with
  | (.error e, s) => (.error e, s, m)
  | (.ok (), s) => m.readIndexRecord codec s

/-- A bound for the number of iterations of loops over the records of a file: if the position does not move the loop never ends,
otherwise it moves by at least one byte in each iteration. -/
def recordFuel (s : IStream) : Nat := s.bytes.length + 2

/-- The names searched for by `recreateEventMap`, LCIORandomAccessMgr.cc:235-241: the search goes on for other records. -/
def notHeader (i : RecordInfo) : Bool := !(i.name == headerRecordName || i.name == runRecordName)

/-- The loop of `recreateEventMap`, LCIORandomAccessMgr.cc:236-279. `skip_records` leaves the stream behind the record it was looking for, so
that the record read is the one after it. The data of run headers are not uncompressed. -/
def RaMgr.recreateLoop (codec : Codec) : Nat → RaMgr → IStream → Except Err Unit × IStream × RaMgr
  | 0, m, s => (.error .diverge, s, m)
  | fuel+1, m, s =>
    match skipRecords (fun (_ : Unit) i => ((), notHeader i)) (recordFuel s) () s with
    | (_, .error .eof, s) => (.ok (), IStream.clear s, m)
    | (_, .error e, s) => (.error e, s, m)
    | (_, .ok (), s) => match readRecord s m.buf with
      | (.error .eof, s, buf) => (.ok (), IStream.clear s, { m with buf := buf })
      | (.error e, s, buf) => (.error e, s, { m with buf := buf })
      | (.ok info, s, buf) =>
        let m := { m with buf := buf }
        match spanOf buf info.headerLength info.dataLength with
        | .error e => (.error e, s, m)
        | .ok data => match plainData codec info data with
          | .error e => (.error e, s, m)
          | .ok plain =>
            if info.name = headerRecordName then
              match readBlocks plain [headerDecoder [str "__dummy__"]] with
              | .error e => (.error e, s, m)
              | .ok (rs, _, _) =>
                let h := ((rs.getLast?).map (·.2)).getD {}
                RaMgr.recreateLoop codec fuel (m.add ⟨h.run, h.evt⟩ info.fileStart) s
            else if info.name = runRecordName then
              match readBlocks data [runDecoder] with
              | .error e => (.error e, s, m)
              | .ok (rs, _, _) =>
                let h := ((rs.getLast?).map (·.2)).getD {}
                RaMgr.recreateLoop codec fuel (m.add ⟨h.run, -1⟩ info.fileStart) s
            else RaMgr.recreateLoop codec fuel m s

/-- `recreateEventMap`, LCIORandomAccessMgr.cc:226-283. -/
def RaMgr.recreateEventMap (codec : Codec) (m : RaMgr) (s : IStream) : Except Err Bool × IStream × RaMgr :=
  match seekStream s 0 with
  | (.error e, s) => (.error e, s, m)
  | (.ok (), s) => match RaMgr.recreateLoop codec (recordFuel s) m s with
    | (.error e, s, m) => (.error e, s, m)
    | (.ok (), s, m) => match seekStream s 0 with
      | (.error e, s) => (.error e, s, m)
      | (.ok (), s) => (.ok true, s, m)

/-- `initAppend`, LCIORandomAccessMgr.cc:175-187. -/
def RaMgr.initAppend (codec : Codec) (m : RaMgr) (s : IStream) : Except Err Bool × IStream × RaMgr :=
  match m.readAccessAt s (-(randomAccessSize : Int)) with
  | (.error e, s, m) => (.error e, s, m)
  | (.ok false, s, m) => match m.recreateEventMap codec s with
    | (.error e, s, m) => (.error e, s, m)
    | (.ok _, s, m) => (.ok false, s, m)
  | (.ok true, s, m) => match m.list.getLast? with
    | none => (.error .ub, s, m)
    | some f =>
      let m := { m with file := some f, list := m.list.dropLast }
      match m.readAccessAt s f.nextLoc.toInt with
      | (.error e, s, m) => (.error e, s, m)
      | (.ok _, s, m) => (.ok true, s, m)

/-- The loop of `createEventMap`, LCIORandomAccessMgr.cc:209-219. It never ends if the chain of records has a cycle: the first argument bounds
the number of iterations. -/
def RaMgr.chainLoop (codec : Codec) : Nat → W64 → RaMgr → IStream → Except Err Unit × IStream × RaMgr
  | 0, _, m, s => (.error .diverge, s, m)
  | fuel+1, raPos, m, s =>
    if raPos = 0 then (.ok (), s, m)
    else match m.readAccessAt s raPos.toInt with
      | (.error e, s, m) => (.error e, s, m)
      | (.ok false, s, m) => (.error .ioException, s, m)
      | (.ok true, s, m) => match m.list.getLast? with
        | none => (.error .ub, s, m)
        | some ra => match m.readIndexAt codec s ra.indexLoc.toInt with
          | (.error e, s, m) => (.error e, s, m)
          | (.ok _, s, m) => RaMgr.chainLoop codec fuel ra.prevLoc m s

/-- `createEventMap`, LCIORandomAccessMgr.cc:191-222. -/
def RaMgr.createEventMap (codec : Codec) (m : RaMgr) (s : IStream) : Except Err Bool × IStream × RaMgr :=
  match m.readAccessAt s (-(randomAccessSize : Int)) with
  | (.error e, s, m) => (.error e, s, m)
  | (.ok false, s, m) => m.recreateEventMap codec s
  | (.ok true, s, m) => match m.list.getLast? with
    | none => (.error .ub, s, m)
    | some f =>
      let m := { m with file := some f, list := m.list.dropLast }
      match m.readAccessAt s f.nextLoc.toInt with
      | (.error e, s, m) => (.error e, s, m)
      | (.ok _, s, m) => match m.list.getLast? with
        | none => (.error .ub, s, m)
        | some ra => match m.readIndexAt codec s ra.indexLoc.toInt with
          | (.error e, s, m) => (.error e, s, m)
          | (.ok _, s, m) => match RaMgr.chainLoop codec (recordFuel s) ra.prevLoc m s with
            | (.error e, s, m) => (.error e, s, m)
            | (.ok (), s, m) => match seekStream s 0 with
              | (.error e, s) => (.error e, s, m)
              | (.ok (), s) => (.ok true, s, m)

/-- One of the three records of `writeRandomAccessRecords`: a record in the raw buffer, and from there to the stream. -/
def RaMgr.writeOne (m : RaMgr) (s : OStream) (name : Str) (b : WBlock) : Except Err (RecordInfo × OStream × RaMgr) :=
  match writeRecord name m.buf [b] 0 with
  | .error e => .error e
  | .ok (info, bytes) =>
    let r := writeRecordTo s bytes info
    .ok (r.1, r.2, { m with buf := bytes })

/-- `writeRandomAccessRecords`, LCIORandomAccessMgr.cc:289-343, on an open stream. -/
def RaMgr.writeRandomAccessRecords (m : RaMgr) (s : OStream) : Except Err (OStream × RaMgr) :=
  if m.map.map.isEmpty then .ok (s, m)
  else match m.writeOne s indexName m.map.block with
    | .error e => .error e
    | .ok (info, s, m) =>
      let thisPos : W64 := BitVec.ofNat 64 s.pos
      let ra := { m.createFromEventMap with
        indexLoc := BitVec.ofNat 64 info.fileStart
        firstLoc := thisPos
        prevLoc := ((m.list.getLast?).map (·.firstLoc)).getD 0 }
      let m := { m with list := m.list ++ [ra] }
      match m.writeOne s accessName ra.block with
      | .error e => .error e
      | .ok (_, s, m) =>
        let f := m.createFileRecord
        let f := { f with
          nextLoc := if f.nextLoc.slt thisPos then thisPos else f.nextLoc
          prevLoc := if thisPos.slt f.prevLoc then thisPos else f.prevLoc }
        match { m with file := some f }.writeOne s accessName f.block with
        | .error e => .error e
        | .ok (_, s, m) => .ok (s, m)

end Lcio
