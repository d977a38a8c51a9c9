import Verif.Lcio.RandomAccess
import Verif.Lcio.Event
/-
The reader: sequential reading, skipping, direct access and reading with listeners.
-/
namespace Lcio
open Sio

/-- An event as it is handed to the user: header and collections. -/
abbrev EventData := EventHeader × List (Str × Collection)

/-- What a reader works with: the codec, the functions of the standard library that the object model leaves open, whether the environment
variable `LCIO_IGNORE_NULL_IN_SUBSET_COLLECTIONS` is set, and the names given to `setReadCollectionNames`. -/
structure RConfig where
  codec : Codec
  std : Std Pid
  ignoreNull : Bool := false
  wanted : List Str := []

/-- `MT::LCReader`, src/cpp/include/MT/LCReader.h:190-230, without lazy unpacking: the list of files (names and contents; they do not change while
they are read), index of the current one, the stream, `_readEventMap`, the random access manager, and the raw buffer. -/
structure Reader where
  files : List (Str × List Byte)
  index : Nat := 0
  stream : IStream
  readMap : Bool := false
  ra : RaMgr := {}
  buf : List Byte := []

/-- `LCReader::open(filename)`, src/cpp/src/MT/LCReader.cc:43-58, of a file with the given content. -/
def Reader.openFile (cfg : RConfig) (r : Reader) (bytes : List Byte) : Except Err Unit × Reader :=
  let r := { r with stream := { bytes := bytes } }
  if r.readMap then
    match r.ra.createEventMap cfg.codec r.stream with
    | (.error e, s, ra) => (.error e, { r with stream := s, ra := ra })
    | (.ok _, s, ra) => (.ok (), { r with stream := s, ra := ra })
  else (.ok (), r)

/-- `LCReader::open(filenames)`, LCReader.cc:62-82, with a new reader. All the files exist. -/
def Reader.openFiles (cfg : RConfig) (direct : Bool) (files : List (Str × List Byte)) : Except Err Unit × Reader :=
  let r : Reader := { files := files, stream := { bytes := [], isOpen := false }, readMap := direct }
  match files with
  | [] => (.error .ioException, r)
  | f :: _ => r.openFile cfg f.2

/-- `LCReader::close`, LCReader.cc:416-419. The stream remains open. -/
def Reader.close (r : Reader) : Reader := { r with ra := r.ra.clear, readMap := false }

/-- `close(); open(_myFilenames[++_currentFileIndex])`, LCReader.cc:112-113, 185-186 and 506-507. -/
def Reader.nextFile (cfg : RConfig) (r : Reader) : Except Err Unit × Reader :=
  let r := { r.close with index := r.index + 1 }
  match r.files[r.index]? with
  | none => (.error .ub, r)
  | some f => r.openFile cfg f.2

/-- Whether there is a next file, LCReader.cc:111, 184 and 504. -/
def Reader.hasNext (r : Reader) : Bool := decide (r.index + 1 < r.files.length)

/-- `SIOEventHeaderRecord::readBlocks` into a new event, LCIORecords.cc:17-24. -/
def decodeHeader (cfg : RConfig) (data : List Byte) : Except Err EventHeader :=
  match readBlocks data [headerDecoder cfg.wanted] with
  | .error e => .error e
  | .ok (hs, _, _) => .ok (match hs with
    | (_, h) :: _ => h
    | [] => {})

/-- `SIOEventRecord::readBlocks`, LCIORecords.cc:52-70: the collections of the event. -/
def decodeCollections (cfg : RConfig) (hdr : EventHeader) (data : List Byte) : Except Err (List (Str × Collection)) :=
  match readBlocks data (eventDecoders cfg.std hdr.cols) with
  | .error e => .error e
  | .ok (results, ρ, _) => .ok (filledCols hdr.cols (results.map fun c => (c.1, c.2.mapPtr ρ)))

/-- Finish an event: `postProcessEvent`, LCReader.cc:563-585. -/
def finishEvent (cfg : RConfig) (e : EventData) : Except Err EventData :=
  match postProcess cfg.ignoreNull e.2 with
  | .error err => .error err
  | .ok cols => .ok (e.1, cols)

/-! ## Sequential reading -/

/-- The variables of `readNextEvent`: the event once its header has been read, and with its collections. -/
structure EventState where
  hdr : Option EventHeader := none
  evt : Option EventData := none

/-- The validator of `readNextEvent` and `readEvent`, LCReader.cc:138-140 and 344-346. -/
def isEventRecord (i : RecordInfo) : Bool := i.name == headerRecordName || i.name == eventRecordName

/-- The processor of `readNextEvent`, LCReader.cc:141-176. -/
def eventProcessor (cfg : RConfig) (st : EventState) (info : RecordInfo) (data : List Byte) : EventState × Except Err Bool :=
  match plainData cfg.codec info data with
  | .error e => (st, .error e)
  | .ok data =>
    if info.name = headerRecordName then
      match decodeHeader cfg data with
      | .error e => (st, .error e)
      | .ok h => ({ hdr := some h }, .ok true)
    else if info.name = eventRecordName then
      match st.hdr with
      | none => (st, .error .ioException)
      | some h => match decodeCollections cfg h data with
        | .error e => (st, .error e)
        | .ok cols => ({ st with evt := some (h, cols) }, .ok false)
    else (st, .ok false)

/-- `LCReader::readNextEvent`, LCReader.cc:135-210. The first argument bounds the number of files. The access mode is not modelled here. -/
def Reader.readNextEventLoop (cfg : RConfig) : Nat → Reader → Except Err (Option EventData) × Reader
  | 0, r => (.error .diverge, r)
  | fuel+1, r =>
    match readRecords (fun st i => (st, isEventRecord i)) (eventProcessor cfg) (recordFuel r.stream) {} r.stream r.buf with
    | (st, .ok (), s, buf) =>
      let r := { r with stream := s, buf := buf }
      match st.evt with
      | none => (.ok none, r)
      | some e => match finishEvent cfg e with
        | .error e => (.error e, r)
        | .ok e => (.ok (some e), r)
    | (_, .error .eof, s, buf) =>
      let r := { r with stream := s, buf := buf }
      if r.hasNext then
        match r.nextFile cfg with
        | (.error e, r) => (.error e, r)
        | (.ok (), r) => match Reader.readNextEventLoop cfg fuel r with
          | (.error .eof, r) => (.ok none, r)
          | x => x
      else (.ok none, r)
    | (_, .error e, s, buf) => (.error e, { r with stream := s, buf := buf })

/-- `LCReader::readNextEvent`. -/
def Reader.readNextEvent (cfg : RConfig) (r : Reader) : Except Err (Option EventData) × Reader := r.readNextEventLoop cfg (r.files.length + 1)

/-- `SIORunHeaderRecord::readBlocks` into a new run header, and the parameter set by the reader, LCReader.cc:99-104 and 442-444. -/
def decodeRun (cfg : RConfig) (file : Str) (info : RecordInfo) (data : List Byte) : Except Err RunHeader :=
  match plainData cfg.codec info data with
  | .error e => .error e
  | .ok data => match readBlocks data [runDecoder] with
    | .error e => .error e
    | .ok (rs, _, _) =>
      let h : RunHeader := ((rs.getLast?).map (·.2)).getD {}
      match h.params.setStr (str "LCIOFileName") file with
      | .error e => .error e
      | .ok p => .ok { h with params := p }

/-- The name of the current file, `_myFilenames[_currentFileIndex]`. -/
def Reader.fileName (r : Reader) : Except Err Str := match r.files[r.index]? with
  | none => .error .ub
  | some f => .ok f.1

/-- The processor of `readNextRunHeader`, LCReader.cc:92-107. -/
def runProcessor (cfg : RConfig) (file : Except Err Str) (st : Option RunHeader) (info : RecordInfo) (data : List Byte) : Option RunHeader × Except Err Bool :=
  match file with
  | .error e => (st, .error e)
  | .ok f => match decodeRun cfg f info data with
    | .error e => (st, .error e)
    | .ok h => (some h, .ok false)

/-- `LCReader::readNextRunHeader`, LCReader.cc:86-131. -/
def Reader.readNextRunLoop (cfg : RConfig) : Nat → Reader → Except Err (Option RunHeader) × Reader
  | 0, r => (.error .diverge, r)
  | fuel+1, r =>
    match readRecords (fun st i => (st, i.name == runRecordName)) (runProcessor cfg r.fileName) (recordFuel r.stream) none r.stream r.buf with
    | (st, .ok (), s, buf) => (.ok st, { r with stream := s, buf := buf })
    | (_, .error .eof, s, buf) =>
      let r := { r with stream := s, buf := buf }
      if r.hasNext then
        match r.nextFile cfg with
        | (.error e, r) => (.error e, r)
        | (.ok (), r) => match Reader.readNextRunLoop cfg fuel r with
          | (.error .eof, r) => (.ok none, r)
          | x => x
      else (.ok none, r)
    | (_, .error e, s, buf) => (.error e, { r with stream := s, buf := buf })

/-- `LCReader::readNextRunHeader`. -/
def Reader.readNextRunHeader (cfg : RConfig) (r : Reader) : Except Err (Option RunHeader) × Reader := r.readNextRunLoop cfg (r.files.length + 1)

/-- `LCReader::skipNEvents`, LCReader.cc:274-295. -/
def Reader.skipNEvents (r : Reader) (n : Int) : Except Err Unit × Reader :=
  if n < 1 then (.ok (), r)
  else
    let pred := fun (c : Nat) (i : RecordInfo) => let c' := if i.name = headerRecordName then c + 1 else c; (c', decide ((c' : Int) < n))
    match skipRecords pred (recordFuel r.stream) 0 r.stream with
    | (_, .error .eof, s) => (.ok (), { r with stream := s })
    | (_, .error e, s) => (.error e, { r with stream := s })
    | (_, .ok (), s) => match skipNRecords (recordFuel s) 1 s with
      | (.error .eof, s) => (.ok (), { r with stream := s })
      | (.error e, s) => (.error e, { r with stream := s })
      | (.ok (), s) => (.ok (), { r with stream := s })

/-! ## Direct access -/

/-- `getEventMap`, LCReader.cc:589-591, as called by `getNumberOfEvents` and `getNumberOfRuns`, LCReader.cc:214-232. -/
def Reader.needMap (cfg : RConfig) (r : Reader) : Except Err Unit × Reader :=
  if r.readMap then (.ok (), r)
  else
    match r.ra.createEventMap cfg.codec r.stream with
    | (.error e, s, ra) => (.error e, { r with readMap := true, stream := s, ra := ra })
    | (.ok _, s, ra) => (.ok (), { r with readMap := true, stream := s, ra := ra })

/-- `_stream.seekg(pos)` followed by the test of the stream, LCReader.cc:303-306 and 327-330. -/
def Reader.seekTo (r : Reader) (pos : W64) : Except Err Unit × Reader :=
  if pos.toInt < 0 then (.error .ioException, { r with stream := { r.stream with eof := false, fail := true } })
  else
    let s := r.stream.seekg pos.toNat
    (if s.good then .ok () else .error .ioException, { r with stream := s })

/-- `LCReader::readRunHeader`, LCReader.cc:299-319. -/
def Reader.readRunHeader (cfg : RConfig) (r : Reader) (run : W32) : Except Err (Option RunHeader) × Reader :=
  if r.readMap then
    let pos := r.ra.map.getPosition ⟨run, -1⟩
    if pos ≠ npos then
      match r.seekTo pos with
      | (.error e, r) => (.error e, r)
      | (.ok (), r) => r.readNextRunHeader cfg
    else (.ok none, r)
  else (.ok none, r)

/-- The processor of `readEvent` without event map, LCReader.cc:347-389. -/
def searchProcessor (cfg : RConfig) (run evt : W32) (st : EventState) (info : RecordInfo) (data : List Byte) : EventState × Except Err Bool :=
  match plainData cfg.codec info data with
  | .error e => (st, .error e)
  | .ok data =>
    if info.name = headerRecordName then
      match decodeHeader cfg data with
      | .error e => (st, .error e)
      | .ok h => ({ hdr := some h }, .ok true)
    else if info.name = eventRecordName then
      match st.hdr with
      | none => (st, .error .ioException)
      | some h =>
        if h.evt = evt ∧ h.run = run then
          match decodeCollections cfg h data with
          | .error e => (st, .error e)
          | .ok cols => ({ st with evt := some (h, cols) }, .ok false)
        else (st, .ok true)
    else (st, .ok false)

/-- `LCReader::readEvent`, LCReader.cc:323-412. -/
def Reader.readEvent (cfg : RConfig) (r : Reader) (run evt : W32) : Except Err (Option EventData) × Reader :=
  if r.readMap then
    let pos := r.ra.map.getPosition ⟨run, evt⟩
    if pos ≠ npos then
      match r.seekTo pos with
      | (.error e, r) => (.error e, r)
      | (.ok (), r) => r.readNextEvent cfg
    else (.ok none, r)
  else
    match readRecords (fun st i => (st, isEventRecord i)) (searchProcessor cfg run evt) (recordFuel r.stream) {} r.stream r.buf with
    | (st, .ok (), s, buf) =>
      let r := { r with stream := s, buf := buf }
      match st.evt with
      | none => (.ok none, r)
      | some e => match finishEvent cfg e with
        | .error e => (.error e, r)
        | .ok e => (.ok (some e), r)
    | (_, .error .eof, s, buf) => (.ok none, { r with stream := s, buf := buf })
    | (_, .error e, s, buf) => (.error e, { r with stream := s, buf := buf })

/-! ## Listeners -/

/-- What a listener gets. -/
inductive Delivery where
  | run (h : RunHeader)
  | event (e : EventData)

/-- The variables of `readStream`: the event whose header has been read, the number of records read, and what the listeners got: number of
the listener, and run header or event. -/
structure StreamState where
  hdr : Option EventHeader := none
  count : Nat := 0
  log : List (Nat × Delivery) := []

/-- The loop over the listeners for an event, LCReader.cc:478-486: the event is processed again for each of them. The listeners are assumed not
to change the event and not to throw. -/
def deliver (cfg : RConfig) (log : List (Nat × Delivery)) : Nat → Nat → EventData → List (Nat × Delivery) × Except Err Unit
  | _, 0, _ => (log, .ok ())
  | i, n+1, e => match finishEvent cfg e with
    | .error err => (log, .error err)
    | .ok e => deliver cfg (log ++ [(i, .event e)]) (i + 1) n e

/-- The processor of `readStream`, LCReader.cc:433-491. -/
def streamProcessor (cfg : RConfig) (file : Except Err Str) (listeners : Nat) (maxRecord : Int) (st : StreamState) (info : RecordInfo) (data : List Byte) :
    StreamState × Except Err Bool :=
  if info.name = runRecordName then
    match file with
    | .error e => (st, .error e)
    | .ok f => match decodeRun cfg f info data with
      | .error e => (st, .error e)
      | .ok h =>
        let st := { st with count := st.count + 1, log := st.log ++ (List.range listeners).map fun i => (i, .run h) }
        (st, .ok (decide ((st.count : Int) < maxRecord)))
  else match plainData cfg.codec info data with
  | .error e => (st, .error e)
  | .ok data =>
    if info.name = headerRecordName then
      match decodeHeader cfg data with
      | .error e => (st, .error e)
      | .ok h => ({ st with hdr := some h }, .ok (decide ((st.count : Int) < maxRecord)))
    else match st.hdr with
      | none => (st, .error .ioException)
      | some h =>
        match decodeCollections cfg h data with
        | .error e => (st, .error e)
        | .ok cols => match deliver cfg st.log 0 listeners (h, cols) with
          | (log, .error e) => ({ st with log := log }, .error e)
          | (log, .ok ()) =>
            let st := { hdr := none, count := st.count + 1, log := log }
            (st, .ok (decide ((st.count : Int) < maxRecord)))

/-- The validator of `readStream`, LCReader.cc:430-432. -/
def isStreamRecord (i : RecordInfo) : Bool := i.name == runRecordName || i.name == headerRecordName || i.name == eventRecordName

/-- `std::numeric_limits<int>::max()`. -/
def intMax : Int := 2147483647

/-- `LCReader::readStream(listeners, maxRecord)`, LCReader.cc:429-535, with some number of listeners. The first argument bounds the number of files.
Returns what the listeners got, also if an exception is thrown. -/
def Reader.readStreamLoop (cfg : RConfig) (listeners : Nat) : Nat → Int → Reader → List (Nat × Delivery) × Except Err Unit × Reader
  | 0, _, r => ([], .error .diverge, r)
  | fuel+1, maxRecord, r =>
    match readRecords (fun st i => (st, isStreamRecord i)) (streamProcessor cfg r.fileName listeners maxRecord) (recordFuel r.stream) {} r.stream r.buf with
    | (st, .ok (), s, buf) => (st.log, .ok (), { r with stream := s, buf := buf })
    | (st, .error .eof, s, buf) =>
      let r := { r with stream := s, buf := buf }
      if r.hasNext then
        match r.nextFile cfg with
        | (.error e, r) => (st.log, .error e, r)
        | (.ok (), r) =>
          let x := Reader.readStreamLoop cfg listeners fuel (if maxRecord = intMax then maxRecord else maxRecord - st.count) r
          (st.log ++ x.1, x.2)
      else if maxRecord = intMax then (st.log, .ok (), r)
      else (st.log, .error .endOfData, r)
    | (st, .error e, s, buf) => (st.log, .error e, { r with stream := s, buf := buf })

/-- `LCReader::readStream(listeners, maxRecord)`; without `maxRecord` it is called with `intMax`, LCReader.cc:423-425. -/
def Reader.readStream (cfg : RConfig) (listeners : Nat) (maxRecord : Int) (r : Reader) : List (Nat × Delivery) × Except Err Unit × Reader :=
  r.readStreamLoop cfg listeners (r.files.length + 1) maxRecord

end Lcio
