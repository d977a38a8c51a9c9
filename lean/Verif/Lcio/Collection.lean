import Verif.Lcio.Objects
/-
Collections of objects, their handlers, and the event record.
-/
namespace Lcio
open Sio

/-- The object classes with a handler in `SIOHandlerMgr::SIOHandlerMgr`, src/cpp/src/SIO/SIOHandlerMgr.cc:30-56. -/
inductive Kind where
  | mcParticle | simCalHit | rawCalHit | calHit | simTrackerHit | tpcHit | trackerRawData | trackerData | trackerPulse | trackerHit
  | trackerHitPlane | trackerHitZCylinder | track | cluster | recoParticle | relation | vertex | strVec | floatVec | intVec | generic
  deriving DecidableEq, Repr

/-- The type names, src/cpp/src/IMPL/LCIO.cc:43-68, with the handlers registered for them. -/
def handlers : List (Str × Kind) :=
  [(str "MCParticle", .mcParticle), (str "SimCalorimeterHit", .simCalHit), (str "RawCalorimeterHit", .rawCalHit), (str "CalorimeterHit", .calHit),
   (str "SimTrackerHit", .simTrackerHit), (str "TPCHit", .tpcHit), (str "TrackerRawData", .trackerRawData), (str "TrackerData", .trackerData),
   (str "TrackerPulse", .trackerPulse), (str "TrackerHit", .trackerHit), (str "TrackerHitPlane", .trackerHitPlane),
   (str "TrackerHitZCylinder", .trackerHitZCylinder), (str "Track", .track), (str "Cluster", .cluster), (str "ReconstructedParticle", .recoParticle),
   (str "LCRelation", .relation), (str "Vertex", .vertex), (str "LCStrVec", .strVec), (str "LCFloatVec", .floatVec), (str "LCIntVec", .intVec),
   (str "LCGenericObject", .generic)]

/-- `SIOHandlerMgr::getHandler`, SIOHandlerMgr.cc:57-63: null for an unknown type. (Handlers of the user, `registerHandler`, are not modelled.) -/
def kindOf (type : Str) : Option Kind := (handlers.find? fun h => h.1 == type).map (·.2)

/-- An object of one of the classes. (In the code a collection of `TrackerHit` may also hold objects of the derived classes; that is not
modelled.) -/
inductive Obj where
  | mcParticle (o : MCParticle) | simCalHit (o : SimCalHit) | rawCalHit (o : RawCalHit) | calHit (o : CalHit) | simTrackerHit (o : SimTrackerHit)
  | tpcHit (o : TPCHit) | trackerRawData (o : TrackerRawData) | trackerData (o : TrackerData) | trackerPulse (o : TrackerPulse)
  | trackerHit (o : TrackerHit) | trackerHitPlane (o : TrackerHitPlane) | trackerHitZCylinder (o : TrackerHitZCylinder) | track (o : Track)
  | cluster (o : Cluster) | recoParticle (o : RecoParticle) | relation (o : Relation) | vertex (o : Vertex) | strVec (l : List Str)
  | floatVec (l : List W32) | intVec (l : List W32) | generic (o : Generic)
  deriving DecidableEq, Repr

/-- All pointers of an object. -/
def Obj.mapPtr (f : Nat → Nat) : Obj → Obj
  | .mcParticle o => .mcParticle (o.mapPtr f)
  | .simCalHit o => .simCalHit (o.mapPtr f)
  | .calHit o => .calHit (o.mapPtr f)
  | .simTrackerHit o => .simTrackerHit (o.mapPtr f)
  | .trackerPulse o => .trackerPulse (o.mapPtr f)
  | .trackerHit o => .trackerHit (o.mapPtr f)
  | .trackerHitPlane o => .trackerHitPlane (o.mapPtr f)
  | .trackerHitZCylinder o => .trackerHitZCylinder (o.mapPtr f)
  | .track o => .track (o.mapPtr f)
  | .cluster o => .cluster (o.mapPtr f)
  | .recoParticle o => .recoParticle (o.mapPtr f)
  | .relation o => .relation (o.mapPtr f)
  | .vertex o => .vertex (o.mapPtr f)
  | o => o

/-- `SIOObjectHandler::write` of the handler of a class. The object is cast to that class; if it is not of that class (in particular, if it
is null) the null pointer is used. -/
def writeObj (c : Ctx) (addr : Nat) : Kind → Obj → List Item
  | .mcParticle, .mcParticle o => o.write c addr
  | .simCalHit, .simCalHit o => o.write c addr
  | .rawCalHit, .rawCalHit o => o.write c addr
  | .calHit, .calHit o => o.write c addr
  | .simTrackerHit, .simTrackerHit o => o.write c addr
  | .tpcHit, .tpcHit o => o.write c addr
  | .trackerRawData, .trackerRawData o => o.write c addr
  | .trackerData, .trackerData o => o.write c addr
  | .trackerPulse, .trackerPulse o => o.write c addr
  | .trackerHit, .trackerHit o => o.write c addr
  | .trackerHitPlane, .trackerHitPlane o => o.write c addr
  | .trackerHitZCylinder, .trackerHitZCylinder o => o.write c addr
  | .track, .track o => o.write c addr
  | .cluster, .cluster o => o.write c addr
  | .recoParticle, .recoParticle o => o.write c addr
  | .relation, .relation o => o.write c
  | .vertex, .vertex o => o.write c addr
  | .strVec, .strVec l => vecWrite wStr addr l
  | .floatVec, .floatVec l => vecWrite w32 addr l
  | .intVec, .intVec l => vecWrite w32 addr l
  | .generic, .generic o => o.write c addr
  | _, _ => [.bad]

/-- `SIOObjectHandler::create` and `read` of the handler of a class. -/
def readObj (c : Ctx) (vers : W32) (self : Nat) : Kind → RProg Obj
  | .mcParticle => .mcParticle <$> MCParticle.read c vers self
  | .simCalHit => .simCalHit <$> SimCalHit.read c vers self
  | .rawCalHit => .rawCalHit <$> RawCalHit.read c vers self
  | .calHit => .calHit <$> CalHit.read c vers self
  | .simTrackerHit => .simTrackerHit <$> SimTrackerHit.read c vers self
  | .tpcHit => .tpcHit <$> TPCHit.read c vers self
  | .trackerRawData => .trackerRawData <$> TrackerRawData.read c self
  | .trackerData => .trackerData <$> TrackerData.read c self
  | .trackerPulse => .trackerPulse <$> TrackerPulse.read c vers self
  | .trackerHit => .trackerHit <$> TrackerHit.read c vers self
  | .trackerHitPlane => .trackerHitPlane <$> TrackerHitPlane.read c vers self
  | .trackerHitZCylinder => .trackerHitZCylinder <$> TrackerHitZCylinder.read c vers self
  | .track => .track <$> Track.read c vers self
  | .cluster => .cluster <$> Cluster.read c vers self
  | .recoParticle => .recoParticle <$> RecoParticle.read c vers self
  | .relation => .relation <$> Relation.read c
  | .vertex => .vertex <$> Vertex.read c self
  | .strVec => .strVec <$> vecRead rStr vers self
  | .floatVec => .floatVec <$> vecRead r32 vers self
  | .intVec => .intVec <$> vecRead r32 vers self
  | .generic => .generic <$> Generic.read c self

/-- An element of a collection: a pointer, with the object it points to. `obj` is `none` for a null pointer, and for the elements of a
subset collection that has just been read, whose objects are elsewhere. -/
structure Elem where
  addr : Nat := 0
  obj : Option Obj := none
  deriving DecidableEq, Repr

/-- `IMPL::LCCollectionVec`, src/cpp/include/IMPL/LCCollectionVec.h. -/
structure Collection where
  type : Str
  flag : W32 := 0
  params : Params := {}
  elems : List Elem := []
  deriving DecidableEq, Repr

/-- All pointers in a collection that is not a subset are in its objects; a subset consists of pointers. -/
def Elem.mapPtr (f : Nat → Nat) (e : Elem) : Elem := match e.obj with
  | none => { e with addr := f e.addr }
  | some o => { e with obj := some (o.mapPtr f) }
/-- All pointers in a collection. -/
def Collection.mapPtr (f : Nat → Nat) (c : Collection) : Collection := { c with elems := c.elems.map (·.mapPtr f) }

/-- The name of the parameter of `SIOVertexHandler`. -/
def vertexKey : Str := str "_lcio.VertexAlgorithmTypes"

/-- `_set.insert(s)` for a `std::set<std::string>`. -/
def setInsert (s : Str) (l : List Str) : List Str := ((omAssign strLt s () (l.map (·, ()))).1).map (·.1)

/-- The loop of `SIOVertexHandler::initWriting`, SIOVertexHandler.cc:40-43: the set of algorithm types. Undefined behaviour if an element is
null or not a vertex. -/
def algTypes : List Elem → List Str → Except Err (List Str)
  | [], set => .ok set
  | e :: es, set => match e.obj with
    | some (.vertex v) => algTypes es (setInsert v.algorithmType set)
    | _ => .error .ub

/-- The loop of `SIOLCGenericObjectHandler::initWriting`, SIOLCGenericObjectHandler.cc:37-43. -/
def allFixed : List Elem → Except Err Bool
  | [] => .ok true
  | e :: es => match e.obj with
    | some (.generic o) => if o.fixed then allFixed es else .ok false
    | _ => .error .ub

/-- The first element as a generic object (`gObj`), SIOLCGenericObjectHandler.cc:45-48. -/
def firstGeneric (es : List Elem) : Option Generic := match es.head? with
  | some ⟨_, some (.generic o)⟩ => some o
  | _ => none

/-- `if(parameters().getStringVal(key).empty() && nullptr != gObj) parameters().setValue(key, value(gObj))`, SIOLCGenericObjectHandler.cc:51-53
and 56-58. -/
def defaultParam (p : Params) (key : Str) (g : Option Generic) (value : Generic → Str) : Except Err Params := do
  let old ← getVal [] p.strs key
  match g with
  | none => .ok p
  | some o => if old.isEmpty then p.setStr key (value o) else .ok p

/-- The changes that `initWriting` makes to the collection, and the state it leaves in the handler: `SIOVertexHandler::initWriting`
(SIOVertexHandler.cc:37-49), `SIOLCGenericObjectHandler::initWriting` (SIOLCGenericObjectHandler.cc:33-78), and
`SIOObjectHandler::initWriting` (src/cpp/src/SIO/SIOObjectHandler.cc:42-46) for all others. -/
def Collection.prepare (std : Std Pid) (k : Kind) (c : Collection) : Except Err (Ctx × Collection) :=
  match k with
  | .vertex => do
    let algs ← algTypes c.elems []
    let params ← c.params.setStrs vertexKey algs
    return ({ std, flag := c.flag, algs }, { c with params })
  | .generic => do
    let fixed ← allFixed c.elems
    let g := firstGeneric c.elems
    let params ← defaultParam c.params (str "TypeName") g (·.typeName)
    let params ← if fixed then defaultParam params (str "DataDescription") g (·.descr) else pure params
    let flag := if fixed then c.flag ||| 1#32 <<< 31 else c.flag
    return ({ std, flag, fixed, nInt := BitVec.ofNat 32 ((g.map (·.ints.length)).getD 0), nFloat := BitVec.ofNat 32 ((g.map (·.floats.length)).getD 0),
              nDouble := BitVec.ofNat 32 ((g.map (·.doubles.length)).getD 0) }, { c with params, flag })
  | _ => .ok ({ std, flag := c.flag }, c)

/-- `_handler->write(device, element)`, src/cpp/src/SIO/SIOCollectionHandler.cc:91. -/
def Elem.write (k : Kind) (c : Ctx) (e : Elem) : List Item := match e.obj with
  | none => [.bad]
  | some o => writeObj c e.addr k o

/-- What `initWriting` writes: flag word and parameters (SIOObjectHandler.cc:42-46), and the sizes of generic objects
(SIOLCGenericObjectHandler.cc:73-76). -/
def writeHead (k : Kind) (ctx : Ctx) (c : Collection) : List Item :=
  w32 c.flag ++ c.params.write ++
  wIf (k == .generic && ctx.fixed) (w32 ctx.nInt) ++ wIf (k == .generic && ctx.fixed) (w32 ctx.nFloat) ++ wIf (k == .generic && ctx.fixed) (w32 ctx.nDouble)

/-- `SIOCollectionHandler::write`, SIOCollectionHandler.cc:76-97. A null handler is dereferenced. An exception in `initWriting` cannot happen, as
the parameters of a collection never become read-only; it is taken as undefined behaviour. `BITSubset` is 18. -/
def Collection.write (std : Std Pid) (c : Collection) : List Item :=
  match kindOf c.type with
  | none => [.bad]
  | some k => match c.prepare std k with
    | .error _ => [.bad]
    | .ok (ctx, c') => writeHead k ctx c' ++ wFor (if ctx.bit 18 then fun e => wPtr e.addr else Elem.write k ctx) c'.elems

/-- The collection after it has been written. -/
def Collection.written (std : Std Pid) (c : Collection) : Collection :=
  match kindOf c.type with
  | none => c
  | some k => match c.prepare std k with
    | .error _ => c
    | .ok (_, c') => c'

/-- `initReading`: `SIOObjectHandler::initReading` (SIOObjectHandler.cc:32-38), `SIOVertexHandler::initReading` (SIOVertexHandler.cc:25-33) and
`SIOLCGenericObjectHandler::initReading` (SIOLCGenericObjectHandler.cc:21-29). -/
def readHead (std : Std Pid) (k : Kind) (vers : W32) : RProg (Ctx × Params) := do
  let flag ← r32
  let params ← if newer vers 1 1 then Params.read {} else .ret {}
  let fixed := k == .generic && flag.getLsbD 31
  let nInt ← rIf fixed r32 0
  let nFloat ← rIf fixed r32 0
  let nDouble ← rIf fixed r32 0
  return ({ std, flag, fixed, nInt, nFloat, nDouble, algs := if k == .vertex then getVals params.strs vertexKey [] else [] }, params)

/-- `(*ioCol)[i] = _handler->create(); _handler->read(...)`, SIOCollectionHandler.cc:59-69. -/
def readElem (k : Kind) (c : Ctx) (vers : W32) : RProg Elem := do
  let self ← rNew
  let o ← (readObj c vers self k).asFailure
  return ⟨self, some o⟩

/-- `SIOCollectionHandler::read`, SIOCollectionHandler.cc:36-72, into a new collection. -/
def Collection.read (std : Std Pid) (type : Str) (vers : W32) : RProg Collection :=
  match kindOf type with
  | none => .throw .ub
  | some k => do
    let (c, params) ← readHead std k vers
    let n ← rCount
    let elems ← rRepeat n (if c.bit 18 then (fun a => { addr := a : Elem }) <$> rPtr else readElem k c vers)
    return { type, flag := c.flag, params, elems }

/-- `LCSIO::EventRecordName`, src/cpp/include/SIO/LCSIO.h:25. -/
def eventRecordName : Str := str "LCEvent"

/-- `LCCollectionVec::isTransient`, src/cpp/src/IMPL/LCCollectionVec.cc:64-66. -/
def Collection.isTransient (c : Collection) : Bool := c.flag.getLsbD 16

/-- `SIOEventRecord::writeRecord` and `setupBlocks`, src/cpp/src/SIO/LCIORecords.cc:50-98: the blocks of an event record. `cols` is the map of
collections of the event, `only` the set of names given by the user (empty means all). -/
def eventBlocks (std : Std Pid) (only : List Str) (cols : List (Str × Collection)) : List WBlock :=
  (cols.filter fun c => !c.2.isTransient && !notSelected only c.1).map fun c => ⟨c.1, blockVersion, c.2.write std⟩

/-- `SIOEventRecord::readBlocks` and `setupBlocks`, LCIORecords.cc:50-77: the decoders for the collections that reading the event header has put
into the event (see `EventHeader.read`). -/
def eventDecoders (std : Std Pid) (cols : List (Str × ColHead)) : List (RBlock Collection) :=
  cols.map fun c => ⟨c.1, Collection.read std c.2.type⟩

end Lcio
