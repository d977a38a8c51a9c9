import Verif.Lcio.Params
import Verif.Lcio.RunEventMap
/-
Run header, event header, index and random access blocks.
-/
namespace Lcio
open Sio

/-- `LCSIO::checkVersion`, src/cpp/src/SIO/LCSIO.cc:10-13. -/
def checkVersion (v : W32) : RProg Unit :=
  if (majorVersion v).toNat < 1 ∧ (minorVersion v).toNat < 8 then .throw .invalidArgument else .ret ()

/-- `LCSIO::blockVersion`, LCSIO.cc:17-19, with the version of CMakeLists.txt:15-16 (cmake/LCIO.h.in:13-14). -/
def blockVersion : W32 := encodeVersion 2 15

/-- The test `vers > SIO_VERSION_ENCODE(maj, min)` of the handlers. -/
def newer (v : W32) (maj min : Nat) : Bool := decide ((encodeVersion (BitVec.ofNat 16 maj) (BitVec.ofNat 16 min)).toNat < v.toNat)

/-! ## Run header -/

/-- `IMPL::LCRunHeaderImpl`, src/cpp/include/IMPL/LCRunHeaderImpl.h. -/
structure RunHeader where
  run : W32 := 0
  det : Str := []
  descr : Str := []
  subdets : List Str := []
  params : Params := {}
  deriving DecidableEq, Repr

/-- `LCSIO::RunBlockName`, src/cpp/include/SIO/LCSIO.h:24. -/
def runBlockName : Str := str "RunHeader"
/-- `LCSIO::RunRecordName`, LCSIO.h:23. -/
def runRecordName : Str := str "LCRunHeader"

/-- `SIORunHeaderHandler::write`, src/cpp/src/SIO/SIORunHeaderHandler.cc:61-72. -/
def RunHeader.write (h : RunHeader) : List Item :=
  w32 h.run ++ wStr h.det ++ wStr h.descr ++ w32 (BitVec.ofNat 32 h.subdets.length) ++ h.subdets.flatMap wStr ++ h.params.write

/-- `SIORunHeaderHandler::read`, SIORunHeaderHandler.cc:30-57, into a new run header. -/
def RunHeader.read (vers : W32) : RProg RunHeader := do
  checkVersion vers
  let run ← r32
  let det ← rStr
  let descr ← rStr
  let n ← r32
  let subdets ← rRepeat (if n.toInt < 0 then 0 else n.toNat) rStr
  let params ← if newer vers 1 1 then Params.read {} else .ret {}
  return { run := run, det := det, descr := descr, subdets := subdets, params := params }

/-- The block list of `SIORunHeaderRecord::writeRecord`, src/cpp/src/SIO/LCIORecords.cc:120-126. -/
def RunHeader.block (h : RunHeader) : WBlock := ⟨runBlockName, blockVersion, h.write⟩
/-- The block list of `SIORunHeaderRecord::readBlocks`, LCIORecords.cc:110-116. -/
def runDecoder : RBlock RunHeader := ⟨runBlockName, RunHeader.read⟩

/-! ## Event header -/

/-- What the event header records of a collection: type name and flag word (src/cpp/include/IMPL/LCCollectionVec.h). -/
structure ColHead where
  type : Str
  flag : W32
  deriving DecidableEq, Repr

/-- `LCCollectionVec::isTransient`, src/cpp/src/IMPL/LCCollectionVec.cc:64-66, `BITTransient` is 16. -/
def ColHead.isTransient (c : ColHead) : Bool := c.flag.getLsbD 16
/-- `LCCollectionVec::isSubset`, LCCollectionVec.cc:84-86, `BITSubset` is 18. -/
def ColHead.isSubset (c : ColHead) : Bool := c.flag.getLsbD 18

/-- `IMPL::LCEventImpl` as seen by the event header, src/cpp/include/IMPL/LCEventImpl.h. `cols` is the map of collections, in order
of the names, which is also the order of `getCollectionNames` (src/cpp/src/IMPL/LCEventImpl.cc:60-67). -/
structure EventHeader where
  run : W32 := 0
  evt : W32 := 0
  time : W64 := 0
  det : Str := str "unknown"
  cols : List (Str × ColHead) := []
  params : Params := {}
  deriving DecidableEq, Repr

/-- `LCSIO::HeaderBlockName`, LCSIO.h:28. -/
def headerBlockName : Str := str "EventHeader"
/-- `LCSIO::HeaderRecordName`, LCSIO.h:27. -/
def headerRecordName : Str := str "LCEventHeader"
/-- `SIOEventHandler::SubsetPostfix`, src/cpp/include/SIO/SIOEventHandler.h:43. -/
def subsetPostfix : Str := str "_References"

/-- The test on `_colSubSet` in `SIOEventHandler::write`, src/cpp/src/SIO/SIOEventHandler.cc:72 and 90: the collection is left out. -/
def notSelected (only : List Str) (name : Str) : Bool := !only.isEmpty && !only.contains name

/-- `SIOEventHandler::write`, SIOEventHandler.cc:68-103. `only` is the set of names given by the user; empty means all. -/
def EventHeader.write (only : List Str) (e : EventHeader) : List Item :=
  let nCol := e.cols.countP fun c => !notSelected only c.1 && !c.2.isTransient
  w32 e.run ++ w32 e.evt ++ w64 e.time ++ wStr e.det ++ w32 (BitVec.ofNat 32 nCol) ++
  e.cols.flatMap (fun c =>
    if c.2.isTransient then []
    else if notSelected only c.1 then []
    else wStr c.1 ++ wStr (if c.2.isSubset then c.2.type ++ subsetPostfix else c.2.type)) ++
  e.params.write

/-- `s.rfind(pat)`: the last position at which `pat` occurs in `s`. -/
def rfind (pat : Str) : Str → Option Nat
  | [] => if pat.isEmpty then some 0 else none
  | c :: cs => match rfind pat cs with
    | some i => some (i + 1)
    | none => if pat.isPrefixOf (c :: cs) then some 0 else none

/-- SIOEventHandler.cc:54-57: cut the type name where the postfix occurs last. -/
def stripPostfix (type : Str) : Str :=
  match rfind subsetPostfix type with
  | some i => type.take i
  | none => type

/-- `LCEventImpl::addCollection` of a collection without elements, LCEventImpl.cc:107-130. `validateCollectionName` (195-210) is a copy of
`sio::validate`. -/
def addCol (cols : List (Str × ColHead)) (name : Str) (c : ColHead) : Except Err (List (Str × ColHead)) :=
  if !validate name then .error .eventException
  else match omFind strLt name cols with
    | some _ => .error .eventException
    | none => .ok (omAssign strLt name c cols).1

/-- The loop over the collections in `SIOEventHandler::read`, SIOEventHandler.cc:50-62. `only` is the set of names the user wants to
read; empty means all. -/
def readCols (only : List Str) : Nat → List (Str × ColHead) → RProg (List (Str × ColHead))
  | 0, cols => .ret cols
  | n+1, cols => do
    let name ← rStr
    let type ← rStr
    if only.isEmpty || only.contains name then
      match addCol cols name ⟨stripPostfix type, 0⟩ with
      | .error e => .throw e
      | .ok cols => readCols only n cols
    else readCols only n cols

/-- `SIOEventHandler::read`, SIOEventHandler.cc:35-67, into a new event. -/
def EventHeader.read (only : List Str) (vers : W32) : RProg EventHeader := do
  checkVersion vers
  let run ← r32
  let evt ← r32
  let time ← r64
  let det ← rStr
  let n ← r32
  let cols ← readCols only (if n.toInt < 0 then 0 else n.toNat) []
  let params ← if newer vers 1 1 then Params.read {} else .ret {}
  return { run := run, evt := evt, time := time, det := det, cols := cols, params := params }

/-- The block of `SIOEventHeaderRecord::writeRecord`, LCIORecords.cc:29-46. -/
def EventHeader.block (only : List Str) (e : EventHeader) : WBlock := ⟨headerBlockName, blockVersion, e.write only⟩
/-- The block of `SIOEventHeaderRecord::readBlocks`, LCIORecords.cc:17-24. -/
def headerDecoder (only : List Str) : RBlock EventHeader := ⟨headerBlockName, EventHeader.read only⟩

/-! ## Index -/

/-- `LCSIO::IndexRecordName` and `LCSIO::IndexBlockName`, LCSIO.h:32-33. -/
def indexName : Str := str "LCIOIndex"

/-- `oneRun`, src/cpp/src/SIO/SIOIndexHandler.cc:86. -/
def RunEventMap.oneRun (m : RunEventMap) : Bool := m.minRunEvent.run == m.maxRunEvent.run
/-- `longOffset`, SIOIndexHandler.cc:90-92. The subtraction of positions is taken modulo 2^64; positions in a file are not negative, so
that it does not overflow. -/
def RunEventMap.longOffset (m : RunEventMap) : Bool := decide ((m.getPosition m.maxRunEvent - m.getPosition m.minRunEvent).toInt > 2147483647)

/-- `SIOIndexHandler::write`, SIOIndexHandler.cc:82-119. The subtraction of run numbers is undefined if it overflows. -/
def RunEventMap.write (m : RunEventMap) : List Item :=
  let control : W32 := (if m.oneRun then 1 else 0) ||| (if m.longOffset then 2 else 0)
  let runMin := m.minRunEvent.run
  let base := m.getPosition m.minRunEvent
  w32 control ++ w32 runMin ++ w64 base ++ w32 (BitVec.ofNat 32 m.map.length) ++
  m.map.flatMap fun e =>
    (if m.oneRun then [] else if BitVec.ssubOverflow e.1.run runMin then [.bad] else w32 (e.1.run - runMin)) ++
    w32 e.1.evt ++
    (if m.longOffset then w64 (e.2 - base) else w32 ((e.2 - base).setWidth 32))

/-- One iteration of the loop of `SIOIndexHandler::read`, SIOIndexHandler.cc:59-77: the entry that is added to the map. The addition of the run
numbers is taken modulo 2^32. -/
def readIndexEntry (oneRun longOffset : Bool) (runMin : W32) (base : W64) : RProg (RunEvent × W64) := do
  let run ← if oneRun then .ret runMin else (runMin + ·) <$> r32
  let evt ← r32
  let pos ← if longOffset then r64 else (BitVec.signExtend 64) <$> r32
  return (⟨run, evt⟩, pos + base)

/-- `SIOIndexHandler::read`, SIOIndexHandler.cc:36-78: the entries that are added, in order. (Entries added before an exception are not
visible in the model.) -/
def readIndex (vers : W32) : RProg (List (RunEvent × W64)) := do
  checkVersion vers
  let control ← r32
  if control.getLsbD 2 then .throw .ioFailure
  else do
    let runMin ← r32
    let base ← r64
    let size ← r32
    rRepeat (if size.toInt < 0 then 0 else size.toNat) (readIndexEntry (control.getLsbD 0) (control.getLsbD 1) runMin base)

/-- `_runEventMap->add(...)` for the entries read, SIOIndexHandler.cc:76. -/
def RunEventMap.addAll (m : RunEventMap) (es : List (RunEvent × W64)) : RunEventMap := es.foldl (fun m e => m.add e.1 e.2) m

/-- The block written in `LCIORandomAccessMgr::writeRandomAccessRecords`, src/cpp/src/SIO/LCIORandomAccessMgr.cc:300-304. -/
def RunEventMap.block (m : RunEventMap) : WBlock := ⟨indexName, blockVersion, m.write⟩
/-- The block of `LCIORandomAccessMgr::readLCIOIndex`, LCIORandomAccessMgr.cc:154-157. -/
def indexDecoder : RBlock (List (RunEvent × W64)) := ⟨indexName, readIndex⟩

/-! ## Random access record -/

/-- `SIO::LCIORandomAccess`, src/cpp/include/SIO/LCIORandomAccess.h:51-60. -/
structure RandomAccess where
  minRE : RunEvent := ⟨0, 0⟩
  maxRE : RunEvent := ⟨0, 0⟩
  nRun : W32 := 0
  nEvt : W32 := 0
  inOrder : W32 := 0
  indexLoc : W64 := 0
  prevLoc : W64 := 0
  nextLoc : W64 := 0
  firstLoc : W64 := 0
  deriving DecidableEq, Repr

/-- `LCSIO::AccessRecordName` and `LCSIO::AccessBlockName`, LCSIO.h:29-30. -/
def accessName : Str := str "LCIORandomAccess"
/-- `LCSIO::RandomAccessSize`, LCSIO.h:31. -/
def randomAccessSize : Nat := 136

/-- `SIORandomAccessHandler::write`, src/cpp/src/SIO/SIORandomAccessHandler.cc:52-68. -/
def RandomAccess.write (a : RandomAccess) : List Item :=
  w32 a.minRE.run ++ w32 a.minRE.evt ++ w32 a.maxRE.run ++ w32 a.maxRE.evt ++ w32 a.nRun ++ w32 a.nEvt ++ w32 a.inOrder ++
  w64 a.indexLoc ++ w64 a.prevLoc ++ w64 a.nextLoc ++ w64 a.firstLoc ++ w32 (0xabcd0000 ||| BitVec.ofNat 32 randomAccessSize)

/-- `SIORandomAccessHandler::read`, SIORandomAccessHandler.cc:32-48. -/
def RandomAccess.read (vers : W32) : RProg RandomAccess := do
  checkVersion vers
  let a ← r32
  let b ← r32
  let c ← r32
  let d ← r32
  let nRun ← r32
  let nEvt ← r32
  let inOrder ← r32
  let indexLoc ← r64
  let prevLoc ← r64
  let nextLoc ← r64
  let firstLoc ← r64
  let _ ← r32
  return { minRE := ⟨a, b⟩, maxRE := ⟨c, d⟩, nRun := nRun, nEvt := nEvt, inOrder := inOrder, indexLoc := indexLoc, prevLoc := prevLoc,
           nextLoc := nextLoc, firstLoc := firstLoc }

/-- The block written in `writeRandomAccessRecords`, LCIORandomAccessMgr.cc:319-325 and 336-339. -/
def RandomAccess.block (a : RandomAccess) : WBlock := ⟨accessName, blockVersion, a.write⟩
/-- The block of `LCIORandomAccessMgr::readLCIORandomAccess`, LCIORandomAccessMgr.cc:110-112. -/
def accessDecoder : RBlock RandomAccess := ⟨accessName, RandomAccess.read⟩

end Lcio
