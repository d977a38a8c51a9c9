import Verif.Lcio.Collection
import Verif.Spec.Store
/-
Specification of storing objects: which objects can be stored, and what is there after loading them. In all definitions `f a` is the place
of the object that is loaded for the object at address `a`.
-/
namespace Spec
open Sio Lcio

/-- A number that fits an `int`. -/
def small (n : Nat) : Prop := n < 2 ^ 31
instance (n : Nat) : Decidable (small n) := inferInstanceAs (Decidable (n < 2 ^ 31))

/-- A value that is stored only if bit `i` of the flag word is set. -/
def ifBit {α : Type} (flag : W32) (i : Nat) (x default : α) : α := if flag.getLsbD i then x else default

/-- A `double` that is stored as a `float`. -/
def viaFloat (std : Std Pid) (x : W64) : W64 := std.widen (std.narrow x)

/-! ## MCParticle -/

/-- Data are kept; momenta and mass with the precision of a `float`; the end point only if the simulator status says that there is one;
daughters are not stored. -/
def keptMCParticle (std : Std Pid) (f : Nat → Nat) (o : MCParticle) : MCParticle :=
  { o with
    p := o.p.map (viaFloat std)
    mass := viaFloat std o.mass
    endpoint := ifBit o.simStatus 31 o.endpoint [0, 0, 0]
    pEndpoint := ifBit o.simStatus 31 (o.pEndpoint.map (viaFloat std)) [0, 0, 0]
    parents := o.parents.map f
    daughters := [] }

/-- An MCParticle that can be stored. -/
structure MCParticleOk (o : MCParticle) : Prop where
  vertex : o.vertex.length = 3
  p : o.p.length = 3
  endpoint : o.endpoint.length = 3
  pEndpoint : o.pEndpoint.length = 3
  spin : o.spin.length = 3
  colorFlow : o.colorFlow.length = 2
  parents : small o.parents.length

/-! ## Calorimeter hits -/

/-- Length, pdg and position of a step only with bit 28 (`CHBIT_STEP`). -/
def keptSimCont (flag : W32) (f : Nat → Nat) (o : SimCont) : SimCont :=
  { o with
    particle := f o.particle
    length := ifBit flag 28 o.length 0
    pdg := ifBit flag 28 o.pdg 0
    stepPosition := ifBit flag 28 o.stepPosition [0, 0, 0] }

/-- Second cell id only with bit 29 (`CHBIT_ID1`), position only with bit 31 (`CHBIT_LONG`). -/
def keptSimCalHit (flag : W32) (f : Nat → Nat) (o : SimCalHit) : SimCalHit :=
  { o with
    cellID1 := ifBit flag 29 o.cellID1 0
    position := ifBit flag 31 o.position [0, 0, 0]
    conts := o.conts.map (keptSimCont flag f) }

/-- A simulated calorimeter hit that can be stored. -/
structure SimCalHitOk (o : SimCalHit) : Prop where
  position : o.position.length = 3
  conts : small o.conts.length
  step : ∀ c ∈ o.conts, c.stepPosition.length = 3

/-- Second cell id only with bit 29 (`RCHBIT_ID1`), energy error with bit 26 (`RCHBIT_ENERGY_ERROR`), time with bit 27 (`RCHBIT_TIME`), position
with bit 31 (`RCHBIT_LONG`). -/
def keptCalHit (flag : W32) (f : Nat → Nat) (o : CalHit) : CalHit :=
  { o with
    cellID1 := ifBit flag 29 o.cellID1 0
    energyError := ifBit flag 26 o.energyError 0
    time := ifBit flag 27 o.time 0
    position := ifBit flag 31 o.position [0, 0, 0]
    rawHit := f o.rawHit }

/-- Second cell id only with bit 29, time stamp with bit 27. -/
def keptRawCalHit (flag : W32) (o : RawCalHit) : RawCalHit :=
  { o with
    cellID1 := ifBit flag 29 o.cellID1 0
    timeStamp := ifBit flag 27 o.timeStamp 0 }

/-! ## Tracker hits -/

/-- Second cell id only with bit 29 (`THBIT_ID1`), momentum and path length with bit 30 (`THBIT_MOMENTUM`). -/
def keptSimTrackerHit (flag : W32) (f : Nat → Nat) (o : SimTrackerHit) : SimTrackerHit :=
  { o with
    cellID1 := ifBit flag 29 o.cellID1 0
    p := ifBit flag 30 o.p [0, 0, 0]
    pathLength := ifBit flag 30 o.pathLength 0
    particle := f o.particle }

/-- A simulated tracker hit that can be stored. -/
structure SimTrackerHitOk (o : SimTrackerHit) : Prop where
  pos : o.pos.length = 3
  p : o.p.length = 3

/-- Second cell id only with bit 31 (`RTHBIT_ID1`). -/
def keptTrackerHit (flag : W32) (f : Nat → Nat) (o : TrackerHit) : TrackerHit :=
  { o with cellID1 := ifBit flag 31 o.cellID1 0, rawHits := o.rawHits.map f }

/-- A tracker hit that can be stored. -/
structure TrackerHitOk (o : TrackerHit) : Prop where
  pos : o.pos.length = 3
  cov : o.cov.length = 6
  rawHits : small o.rawHits.length

/-- Second cell id only with bit 31 (`RTHPBIT_ID1`). -/
def keptTrackerHitPlane (flag : W32) (f : Nat → Nat) (o : TrackerHitPlane) : TrackerHitPlane :=
  { o with cellID1 := ifBit flag 31 o.cellID1 0, rawHits := o.rawHits.map f }

/-- A planar tracker hit that can be stored. -/
structure TrackerHitPlaneOk (o : TrackerHitPlane) : Prop where
  pos : o.pos.length = 3
  u : o.u.length = 2
  v : o.v.length = 2
  rawHits : small o.rawHits.length

/-- Second cell id only with bit 31 (`RTHZBIT_ID1`). -/
def keptTrackerHitZCylinder (flag : W32) (f : Nat → Nat) (o : TrackerHitZCylinder) : TrackerHitZCylinder :=
  { o with cellID1 := ifBit flag 31 o.cellID1 0, rawHits := o.rawHits.map f }

/-- A cylindrical tracker hit that can be stored. -/
structure TrackerHitZCylinderOk (o : TrackerHitZCylinder) : Prop where
  pos : o.pos.length = 3
  center : o.center.length = 2
  rawHits : small o.rawHits.length

/-- Second cell id only with bit 31 (`TRAWBIT_ID1`). -/
def keptTrackerRawData (flag : W32) (o : TrackerRawData) : TrackerRawData := { o with cellID1 := ifBit flag 31 o.cellID1 0 }
/-- Second cell id only with bit 31 (`TRAWBIT_ID1`). -/
def keptTrackerData (flag : W32) (o : TrackerData) : TrackerData := { o with cellID1 := ifBit flag 31 o.cellID1 0 }
/-- Second cell id only with bit 31 (`TRAWBIT_ID1`), covariance matrix with bit 30 (`TRAWBIT_CM`). -/
def keptTrackerPulse (flag : W32) (f : Nat → Nat) (o : TrackerPulse) : TrackerPulse :=
  { o with cellID1 := ifBit flag 31 o.cellID1 0, cov := ifBit flag 30 o.cov [0, 0, 0], corrData := f o.corrData }

/-- Raw data only with bit 31 (`TPCBIT_RAW`). -/
def keptTPCHit (flag : W32) (o : TPCHit) : TPCHit := { o with raw := ifBit flag 31 o.raw [] }

/-! ## Track, cluster, reconstructed particle, vertex -/

/-- Hits only with bit 31 (`TRBIT_HITS`). -/
def keptTrack (flag : W32) (f : Nat → Nat) (o : Track) : Track :=
  { o with tracks := o.tracks.map f, hits := ifBit flag 31 (o.hits.map f) [] }

/-- A track that can be stored: no two track states at the same location, other than `AtOther` (0). -/
structure TrackOk (o : Track) : Prop where
  states : small o.states.length
  cov : ∀ s ∈ o.states, s.cov.length = 15 ∧ s.reference.length = 3
  locations : o.states.Pairwise fun s t => s.location ≠ t.location ∨ s.location = 0
  hitNumbers : small o.hitNumbers.length
  tracks : small o.tracks.length
  hits : small o.hits.length

/-- Particle ids that are added one after the other to a list that is sorted each time. -/
def addedInTurn (std : Std Pid) (pids : List Pid) : List Pid := pids.foldl (fun l p => std.sort (l ++ [p])) []

/-- Hits and their contributions only with bit 31 (`CLBIT_HITS`). Particle ids are added one after the other. -/
def keptCluster (std : Std Pid) (flag : W32) (f : Nat → Nat) (o : Cluster) : Cluster :=
  { o with
    pids := addedInTurn std (o.pids.map fun p => { p with addr := 0 })
    clusters := o.clusters.map f
    hits := ifBit flag 31 (o.hits.map f) []
    weights := ifBit flag 31 o.weights [] }

/-- A cluster that can be stored: as many contributions as hits. -/
structure ClusterOk (o : Cluster) : Prop where
  position : o.position.length = 3
  posError : o.posError.length = 6
  dirError : o.dirError.length = 3
  shape : small o.shape.length
  pids : small o.pids.length
  params : ∀ p ∈ o.pids, small p.params.length
  clusters : small o.clusters.length
  hits : small o.hits.length
  weights : o.weights.length = o.hits.length
  energies : small o.energies.length

/-- Momentum, energy and mass with the precision of a `float`. Particle ids, which get the places `ids`, are added one after the other. -/
def keptRecoParticle (std : Std Pid) (f : Nat → Nat) (ids : List Nat) (o : RecoParticle) : RecoParticle :=
  { o with
    momentum := o.momentum.map (viaFloat std)
    energy := viaFloat std o.energy
    mass := viaFloat std o.mass
    pids := addedInTurn std (List.zipWith (fun p id => { p with addr := id }) o.pids ids)
    pidUsed := f o.pidUsed
    particles := o.particles.map f
    tracks := o.tracks.map f
    clusters := o.clusters.map f
    startVertex := f o.startVertex }

/-- A reconstructed particle that can be stored. -/
structure RecoParticleOk (o : RecoParticle) : Prop where
  momentum : o.momentum.length = 3
  cov : o.cov.length = 10
  reference : o.reference.length = 3
  pids : small o.pids.length
  params : ∀ p ∈ o.pids, small p.params.length
  particles : small o.particles.length
  tracks : small o.tracks.length
  clusters : small o.clusters.length

/-- All data; `isPrimary` is kept, not the number standing for it. -/
def keptVertex (f : Nat → Nat) (o : Vertex) : Vertex :=
  { o with primary := if o.primary = 0 then 0 else 0x01000000, particle := f o.particle }

/-- A vertex that can be stored. -/
structure VertexOk (o : Vertex) : Prop where
  pos : o.pos.length = 3
  cov : o.cov.length = 6
  params : small o.params.length

/-! ## Relations, vectors, generic objects -/

/-- Weight only with bit 31 (`LCREL_WEIGHTED`); otherwise it is 1. -/
def keptRelation (flag : W32) (f : Nat → Nat) (o : Relation) : Relation :=
  { from_ := f o.from_, to := f o.to, weight := ifBit flag 31 o.weight 0x3f800000 }

/-- The data. Type name and description are not stored with the object; whether it is of fixed size is a property of the collection (bit 31,
`GOBIT_FIXED`). -/
def keptGeneric (fixed : Bool) (o : Generic) : Generic := { ints := o.ints, floats := o.floats, doubles := o.doubles, fixed := fixed }

/-- A generic object that can be stored. -/
structure GenericOk (o : Generic) : Prop where
  ints : small o.ints.length
  floats : small o.floats.length
  doubles : small o.doubles.length

/-! ## Any object -/

/-- What is loaded for an object in a collection with flag word `flag`. -/
def keptObj (std : Std Pid) (flag : W32) (f : Nat → Nat) (ids : List Nat) : Obj → Obj
  | .mcParticle o => .mcParticle (keptMCParticle std f o)
  | .simCalHit o => .simCalHit (keptSimCalHit flag f o)
  | .rawCalHit o => .rawCalHit (keptRawCalHit flag o)
  | .calHit o => .calHit (keptCalHit flag f o)
  | .simTrackerHit o => .simTrackerHit (keptSimTrackerHit flag f o)
  | .tpcHit o => .tpcHit (keptTPCHit flag o)
  | .trackerRawData o => .trackerRawData (keptTrackerRawData flag o)
  | .trackerData o => .trackerData (keptTrackerData flag o)
  | .trackerPulse o => .trackerPulse (keptTrackerPulse flag f o)
  | .trackerHit o => .trackerHit (keptTrackerHit flag f o)
  | .trackerHitPlane o => .trackerHitPlane (keptTrackerHitPlane flag f o)
  | .trackerHitZCylinder o => .trackerHitZCylinder (keptTrackerHitZCylinder flag f o)
  | .track o => .track (keptTrack flag f o)
  | .cluster o => .cluster (keptCluster std flag f o)
  | .recoParticle o => .recoParticle (keptRecoParticle std f ids o)
  | .relation o => .relation (keptRelation flag f o)
  | .vertex o => .vertex (keptVertex f o)
  | .strVec l => .strVec l
  | .floatVec l => .floatVec l
  | .intVec l => .intVec l
  | .generic o => .generic (keptGeneric (flag.getLsbD 31) o)

/-- An object that can be stored in a collection of class `k`. -/
def ObjOk : Kind → Obj → Prop
  | .mcParticle, .mcParticle o => MCParticleOk o
  | .simCalHit, .simCalHit o => SimCalHitOk o
  | .rawCalHit, .rawCalHit _ => True
  | .calHit, .calHit o => o.position.length = 3
  | .simTrackerHit, .simTrackerHit o => SimTrackerHitOk o
  | .tpcHit, .tpcHit o => small o.raw.length
  | .trackerRawData, .trackerRawData o => small o.adc.length
  | .trackerData, .trackerData o => small o.charge.length
  | .trackerPulse, .trackerPulse o => o.cov.length = 3
  | .trackerHit, .trackerHit o => TrackerHitOk o
  | .trackerHitPlane, .trackerHitPlane o => TrackerHitPlaneOk o
  | .trackerHitZCylinder, .trackerHitZCylinder o => TrackerHitZCylinderOk o
  | .track, .track o => TrackOk o
  | .cluster, .cluster o => ClusterOk o
  | .recoParticle, .recoParticle o => RecoParticleOk o
  | .relation, .relation _ => True
  | .vertex, .vertex o => VertexOk o
  | .strVec, .strVec l => small l.length ∧ ∀ s ∈ l, small s.length
  | .floatVec, .floatVec l => small l.length
  | .intVec, .intVec l => small l.length
  | .generic, .generic o => GenericOk o
  | _, _ => False

/-- Objects of class `k` can be pointed at in a collection with flag word `flag`: relations never; calorimeter hits and raw calorimeter
hits unless bit 28 (`RCHBIT_NO_PTR`), TPC hits unless bit 30 (`TPCBIT_NO_PTR`) is set; all others always. -/
def canPointAt (flag : W32) : Kind → Bool
  | .relation => false
  | .calHit => !flag.getLsbD 28
  | .rawCalHit => !flag.getLsbD 28
  | .tpcHit => !flag.getLsbD 30
  | _ => true

/-- The particle ids that an object has and that can be pointed at. -/
def pidsOf : Obj → List Pid
  | .recoParticle o => o.pids
  | _ => []

/-! ## Collections and events -/

/-- Two lists have the same length and corresponding elements are related. -/
def All2 {α β : Type} (R : α → β → Prop) (l : List α) (l' : List β) : Prop :=
  l.length = l'.length ∧ ∀ (i : Nat) (a : α) (b : β), l[i]? = some a → l'[i]? = some b → R a b

/-- All elements are generic objects. -/
def allGeneric (es : List Elem) : Prop := ∀ e ∈ es, ∃ o, e.obj = some (.generic o)

/-- A collection of generic objects that can be stored: either all are of fixed size, and then of the same size, or not all are, and then the
collection does not claim that they are (bit 31). The parameters with type name and description are not empty vectors. -/
structure GenericColOk (c : Collection) : Prop where
  objects : allGeneric c.elems
  fixed : (∀ e ∈ c.elems, ∀ o, e.obj = some (.generic o) → o.fixed = true) ∨ c.flag.getLsbD 31 = false
  sizes : (∀ e ∈ c.elems, ∀ o, e.obj = some (.generic o) → o.fixed = true) →
    ∀ e ∈ c.elems, ∀ e' ∈ c.elems, ∀ o o', e.obj = some (.generic o) → e'.obj = some (.generic o') →
      o.ints.length = o'.ints.length ∧ o.floats.length = o'.floats.length ∧ o.doubles.length = o'.doubles.length
  typeName : omFind strLt (str "TypeName") c.params.strs ≠ some []
  descr : omFind strLt (str "DataDescription") c.params.strs ≠ some []

/-- A collection that can be stored. The parameters are those that the collection has after it has been written: the handlers for vertices
and generic objects add some. -/
structure CollectionOk (std : Std Pid) (k : Kind) (c : Collection) : Prop where
  kind : kindOf c.type = some k
  count : small c.elems.length
  access : c.params.readOnly = false
  params : ParamsOk (c.written std).params
  objects : c.flag.getLsbD 18 = false → ∀ e ∈ c.elems, ∃ o, e.obj = some o ∧ ObjOk k o
  vertices : k = .vertex → ∀ e ∈ c.elems, ∃ o, e.obj = some (.vertex o)
  generic : k = .generic → GenericColOk c

/-- The addresses of the objects in a collection that can be pointed at. -/
def tagged (flag : W32) (k : Kind) (es : List Elem) : List Nat :=
  if flag.getLsbD 18 then [] else
  es.flatMap fun e => (match e.obj with | some o => (pidsOf o).map (·.addr) | none => []) ++ if canPointAt flag k then [e.addr] else []

/-- What is loaded for an element of a collection: a pointer in a subset, otherwise a new object, which is the one that pointers are set to, if
there can be any. -/
def LoadedElem (std : Std Pid) (flag : W32) (k : Kind) (T : Nat → Nat) (e e' : Elem) : Prop :=
  if flag.getLsbD 18 then e' = ⟨T e.addr, none⟩
  else (∃ o, e.obj = some o ∧ e'.obj = some (keptObj std flag T ((pidsOf o).map fun p => T p.addr) o)) ∧
    (canPointAt flag k = true → e'.addr = T e.addr)

/-- What is loaded for a collection. -/
structure LoadedCol (std : Std Pid) (k : Kind) (T : Nat → Nat) (c c' : Collection) : Prop where
  type : c'.type = c.type
  flag : c'.flag = (c.written std).flag
  params : c'.params = (c.written std).params
  elems : All2 (LoadedElem std c'.flag k T) c.elems c'.elems

/-- The collections of an event that are stored: those that are not transient and that the user selects (none selected means all). -/
def storedCols (only : List Str) (cols : List (Str × Collection)) : List (Str × Collection) :=
  cols.filter fun c => !c.2.flag.getLsbD 16 && (only.isEmpty || only.contains c.1)

/-- The kind of a collection (of some kind). -/
def kindD (c : Collection) : Kind := (kindOf c.type).getD .mcParticle

/-- The addresses of all the objects in some collections that can be pointed at. -/
def allTagged (cols : List (Str × Collection)) : List Nat := cols.flatMap fun c => tagged c.2.flag (kindD c.2) c.2.elems

/-- The collections of an event can be stored. -/
structure EventOk (std : Std Pid) (only : List Str) (cols : List (Str × Collection)) : Prop where
  names : (cols.map (·.1)).Nodup
  stored : ∀ c ∈ storedCols only cols, CollectionOk std (kindD c.2) c.2
  size : Writable eventRecordName (eventBlocks std only cols)
  /-- an object is in one collection only, apart from subsets -/
  addresses : (allTagged (storedCols only cols)).Nodup
  nonNull : 0 ∉ allTagged (storedCols only cols)

end Spec
