import Verif.Lcio.Memory
import Verif.Lcio.Reader
/-
Events with lazy unpacking: the event record is decoded when a collection is asked for.
-/
namespace Lcio
open Sio

/-! ## Blocks held by shared pointers -/

/-- `std::remove_if` on a vector of shared pointers, without the call of `erase` that usually follows: what is in the vector afterwards. The predicate
dereferences every pointer. What is kept is moved to the front; a pointer that was moved from is null, one that was to be removed and not overwritten
is still there. -/
def removeIf {α : Type} (p : α → Bool) (l : List (Option α)) : Except Err (List (Option α)) :=
  match l.mapM id with
  | none => .error .ub
  | some l =>
    let before := l.takeWhile fun x => !p x
    let after := l.dropWhile fun x => !p x
    let kept := after.filter fun x => !p x
    .ok ((before ++ kept).map some ++ (after.drop kept.length).map fun x => if p x then some x else none)

/-- The `find_if` of `api::read_blocks`, sio/src/api.cc:288-290, in a list with null pointers. -/
def findBlock {α : Type} (name : Str) : List (Option (RBlock α)) → Except Err (Option (RBlock α))
  | [] => .ok none
  | none :: _ => .error .ub
  | some b :: bs => if b.name == name then .ok (some b) else findBlock name bs

/-- The loop of `api::read_blocks`, sio/src/api.cc:281-307, as `readBlocksLoop`, but the list of blocks may contain null pointers. -/
def readSharedLoop {α : Type} (rec : List Byte) (blocks : List (Option (RBlock α))) : Nat → Nat → RDev → Except Err (List (List Byte × α) × RDev)
  | fuel, pos, dev =>
    if pos ≥ rec.length then .ok ([], dev)
    else match fuel with
    | 0 => .error .diverge
    | fuel+1 => do
      let (info, span) ← extractBlock rec pos
      match ← findBlock info.name blocks with
      | none => readSharedLoop rec blocks fuel info.recordEnd dev
      | some b => do
        let dev := { dev with buf := span }
        let dev ← dev.seek info.headerLength
        let (a, dev) ← rethrowing ((b.read info.version).run dev)
        let (rest, dev) ← readSharedLoop rec blocks fuel info.recordEnd dev
        return ((info.name, a) :: rest, dev)

/-- `api::read_blocks`, sio/src/api.cc:277-309, as `readBlocks`, but the list of blocks may contain null pointers. -/
def readShared {α : Type} (rec : List Byte) (blocks : List (Option (RBlock α))) (next : Nat := 1) : Except Err (List (List Byte × α) × (Nat → Nat) × RDev) := do
  let (res, dev) ← readSharedLoop rec blocks (rec.length + 1) 0 { buf := [], next := next }
  let dev' ← dev.relocate
  return (res, fun w => if w = 0 then 0 else (mapFind w dev.pointedAt).getD 0, dev')

/-! ## Events -/

/-- An event in memory that was read from a file: the event object and the collections by address. -/
structure FullEvent where
  obj : EventObj
  mem : Nat → Collection

/-- `IOIMPL::LCEventLazyImpl`, src/cpp/include/IOIMPL/LCEventLazyImpl.h:25-92: the event object (of the base class), the collections by address, `_blocks`
(name and collection; `none` is a null pointer), `_recordInfo` with `_recordBuffer`, and `_unpacked`. -/
structure LazyEvent extends FullEvent where
  blocks : List (Option (Str × Nat)) := []
  record : Option (RecordInfo × List Byte) := none
  unpacked : Bool := false

/-- `_colMap` of an event after its header was read, src/cpp/src/SIO/SIOEventHandler.cc:50-64: new collections, numbered from 1. -/
def newMap (heads : List (Str × ColHead)) : List (Str × Nat) := heads.zipIdx.map fun p => (p.1.1, p.2 + 1)

/-- The collections in memory after the header was read: the new ones are empty, there are others. -/
def newMem (heads : List (Str × ColHead)) (others : Nat → Collection) (a : Nat) : Collection :=
  match a with
  | 0 => others 0
  | a+1 => match heads[a]? with
    | some h => { type := h.2.type }
    | none => others (a + 1)

/-- Put contents into the collections of a map, in order. -/
def store (map : List (Str × Nat)) (cols : List (Str × Collection)) (mem : Nat → Collection) (a : Nat) : Collection :=
  match (map.zip cols).find? fun p => p.1.2 == a with
  | some p => p.2.2
  | none => mem a

/-- An event that was unpacked by the reader, MT/LCReader.cc:136-210. -/
def FullEvent.make (e : EventData) (others : Nat → Collection) : FullEvent :=
  ⟨{ colMap := newMap e.1.cols }, store (newMap e.1.cols) e.2 (newMem e.1.cols others)⟩

/-- `LCEventLazyImpl::setBuffer` and `setupBlocks` for the event with header `h`, src/cpp/src/IOIMPL/LCEventLazyImpl.cc:38-49 and 104-112; the header was
read by MT/LCReader.cc:154-161. -/
def LazyEvent.make (h : EventHeader) (others : Nat → Collection) (info : RecordInfo) (buf : List Byte) : LazyEvent :=
  { obj := { colMap := newMap h.cols }, mem := newMem h.cols others, blocks := (newMap h.cols).map some, record := some (info, buf) }

/-- What reading the blocks puts into the collections they belong to. -/
def fillBlocks (blocks : List (Option (Str × Nat))) (results : List (Str × Collection)) (mem : Nat → Collection) (a : Nat) : Collection :=
  match blocks.findSome? fun b => b.bind fun b => if b.2 == a then some b.1 else none with
  | none => mem a
  | some n => match results.find? fun r => r.1 == n with
    | some r => r.2
    | none => mem a

/-- The collections of an event with their names. -/
def FullEvent.cols (e : FullEvent) : List (Str × Collection) := e.obj.colMap.map fun c => (c.1, e.mem c.2)

/-- `LCEventLazyImpl::unpackEvent` and `postProcessEvent`, LCEventLazyImpl.cc:53-102. A buffer of length 0 cannot be constructed
(sio/src/buffer.cc:159-164). If reading the blocks fails, some collections may have been filled; this
is not kept here, because nobody can get at them: every later call reads the same blocks again and fails as well. Particles in collections that are
not in the event are not found when relations are restored (in the code they are, if something points to them). -/
def LazyEvent.unpack (cfg : RConfig) (e : LazyEvent) : Except Err Unit × LazyEvent :=
  if e.unpacked then (.ok (), e)
  else match e.record with
  | none => (.error .ioException, e)
  | some (info, buf) =>
    if isCompressed info.options && info.uncompressedLength == 0 then (.error .invalidArgument, e)
    else if info.headerLength > buf.length then (.error .outOfRange, e)
    else match plainData cfg.codec info (buf.drop info.headerLength) with
    | .error x => (.error x, e)
    | .ok data => match readShared data (e.blocks.map (Option.map fun b => ⟨b.1, Collection.read cfg.std (e.mem b.2).type⟩)) with
      | .error x => (.error x, e)
      | .ok (results, ρ, _) =>
        let e := { e with mem := fillBlocks e.blocks (results.map fun c => (c.1, c.2.mapPtr ρ)) e.mem, record := some (info, []), unpacked := true }
        match restoreRelations e.cols with
        | .error x => (.error x, e)
        | .ok cols =>
          let e := { e with mem := store e.obj.colMap cols e.mem }
          if !cfg.ignoreNull && cols.any (fun c => c.2.flag.getLsbD 18 && c.2.elems.any (·.addr == 0)) then (.error .lcException, e) else (.ok (), e)

/-! ## Calls -/

/-- What a call shows: its answer, and the content of the collection it returns. -/
abbrev Shown := EventAnswer × Option Collection

/-- `setTransient(true)` of a collection, src/cpp/src/IMPL/LCCollectionVec.cc:68-71, as called by `takeCollection`. -/
def setTransientAt (a : Nat) (mem : Nat → Collection) (b : Nat) : Collection := if b = a then { mem b with flag := (mem b).flag ||| 0x10000 } else mem b

/-- A call on an event that is unpacked: `LCEventImpl` with the collections in memory. -/
def FullEvent.call (e : FullEvent) (c : EventCall) : Shown × FullEvent :=
  let r := e.obj.call c
  match c, r.1 with
  | .take _, .collection a => let mem := setTransientAt a e.mem; ((r.1, some (mem a)), ⟨r.2, mem⟩)
  | _, .collection a => ((r.1, some (e.mem a)), ⟨r.2, e.mem⟩)
  | _, _ => ((r.1, none), ⟨r.2, e.mem⟩)

/-- A sequence of calls. -/
def FullEvent.calls (e : FullEvent) : List EventCall → List Shown × FullEvent
  | [] => ([], e)
  | c :: cs => let r := e.call c; let r' := r.2.calls cs; (r.1 :: r'.1, r'.2)

/-- A call on an event with lazy unpacking: `getCollection`, `takeCollection` and `removeCollection` are those of LCEventLazyImpl.cc:17-34, the other
functions those of the base class. -/
def LazyEvent.call (cfg : RConfig) (e : LazyEvent) (c : EventCall) : Shown × LazyEvent :=
  match c with
  | .get _ | .take _ => match e.unpack cfg with
    | (.error x, e) => ((.threw x, none), e)
    | (.ok (), e) => let r := e.toFullEvent.call c; (r.1, { e with toFullEvent := r.2 })
  | .remove name => match removeIf (fun b => b.1 == name) e.blocks with
    | .error x => ((.threw x, none), e)
    | .ok blocks => let r := e.toFullEvent.call c; (r.1, { e with toFullEvent := r.2, blocks := blocks })
  | _ => let r := e.toFullEvent.call c; (r.1, { e with toFullEvent := r.2 })

/-- A sequence of calls. -/
def LazyEvent.calls (cfg : RConfig) (e : LazyEvent) : List EventCall → List Shown × LazyEvent
  | [] => ([], e)
  | c :: cs => let r := e.call cfg c; let r' := r.2.calls cfg cs; (r.1 :: r'.1, r'.2)

/-! ## The reader -/

/-- The variables of `readNextEvent` with lazy unpacking: header of the event, and the event record. -/
structure LazyState where
  hdr : Option EventHeader := none
  evt : Option (EventHeader × RecordInfo × List Byte) := none

/-- The processor of `readNextEvent` with lazy unpacking, MT/LCReader.cc:141-176: an event record is not uncompressed, the raw buffer goes to the event. The
header of the record, which is not looked at any more, is replaced by zeros. -/
def lazyProcessor (cfg : RConfig) (st : LazyState) (info : RecordInfo) (data : List Byte) : LazyState × Except Err Bool :=
  if info.name = eventRecordName then
    match st.hdr with
    | none => (st, .error .ioException)
    | some h => ({ st with evt := some (h, info, List.replicate info.headerLength 0 ++ data) }, .ok false)
  else match plainData cfg.codec info data with
    | .error e => (st, .error e)
    | .ok data =>
      if info.name = headerRecordName then
        match decodeHeader cfg data with
        | .error e => (st, .error e)
        | .ok h => ({ hdr := some h }, .ok true)
      else (st, .ok false)

/-- `LCReader::readNextEvent`, MT/LCReader.cc:135-210, with lazy unpacking. -/
def Reader.readLazyLoop (cfg : RConfig) : Nat → Reader → Except Err (Option (EventHeader × RecordInfo × List Byte)) × Reader
  | 0, r => (.error .diverge, r)
  | fuel+1, r =>
    match readRecords (fun st i => (st, isEventRecord i)) (lazyProcessor cfg) (recordFuel r.stream) {} r.stream r.buf with
    | (st, .ok (), s, buf) => (.ok st.evt, { r with stream := s, buf := buf })
    | (_, .error .eof, s, buf) =>
      let r := { r with stream := s, buf := buf }
      if r.hasNext then
        match r.nextFile cfg with
        | (.error e, r) => (.error e, r)
        | (.ok (), r) => match Reader.readLazyLoop cfg fuel r with
          | (.error .eof, r) => (.ok none, r)
          | x => x
      else (.ok none, r)
    | (_, .error e, s, buf) => (.error e, { r with stream := s, buf := buf })

/-- `LCReader::readNextEvent` with lazy unpacking. The raw buffer afterwards is the old one here; in the code it is a new one of the same size. -/
def Reader.readNextLazy (cfg : RConfig) (r : Reader) : Except Err (Option (EventHeader × RecordInfo × List Byte)) × Reader :=
  r.readLazyLoop cfg (r.files.length + 1)

end Lcio
