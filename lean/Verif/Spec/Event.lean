import Verif.Lcio.Event
import Verif.Spec.Objects
/-
Specification of storing and loading whole events.
-/
namespace Spec
open Sio Lcio

/-- A collection of MCParticles that is not a subset. -/
def isMC (c : Str × Collection) : Bool := c.2.type == str "MCParticle" && !c.2.flag.getLsbD 18

/-- The parents of an element, if it is an MCParticle. -/
def parentsOf (e : Elem) : List Nat := match e.obj with
  | some (.mcParticle o) => o.parents
  | _ => []
/-- The daughters of an element, if it is an MCParticle. -/
def daughtersOf (e : Elem) : List Nat := match e.obj with
  | some (.mcParticle o) => o.daughters
  | _ => []

/-- The addresses of all particles in the collections of MCParticles. -/
def mcAddrs (cs : List (Str × Collection)) : List Nat := cs.flatMap fun c => if isMC c then c.2.elems.map (·.addr) else []

/-- All particles in the collections of MCParticles. -/
def mcElems (cs : List (Str × Collection)) : List Elem := cs.flatMap fun c => if isMC c then c.2.elems else []

/-- Among the elements, those that have `x` as a parent, in order, once for each time that they have. -/
def childrenOf (es : List Elem) (x : Nat) : List Nat := es.flatMap fun e => ((parentsOf e).filter (· == x)).map fun _ => e.addr

/-- The elements with other daughters. -/
def Elem.withD (D : Nat → List Nat) (e : Elem) : Elem := match e.obj with
  | some (.mcParticle o) => { e with obj := some (.mcParticle { o with daughters := D e.addr }) }
  | _ => e
/-- The collections with other daughters of the MCParticles: `D a` of that at `a`. -/
def withDaughters (D : Nat → List Nat) (cs : List (Str × Collection)) : List (Str × Collection) :=
  cs.map fun c => (c.1, { c.2 with elems := c.2.elems.map (Elem.withD D) })

/-- The parents of every MCParticle are MCParticles in the same collection or one that comes earlier in the event. -/
def ParentsEarlier (cs : List (Str × Collection)) : Prop :=
  ∀ pre c post, cs = pre ++ c :: post → isMC c = true → ∀ e ∈ c.2.elems, ∀ p ∈ parentsOf e, p ∈ mcAddrs (pre ++ [c])

/-- The subsets consist of objects of the other collections that can be pointed at. -/
def SubsetsInside (cs : List (Str × Collection)) : Prop := ∀ c ∈ cs, c.2.flag.getLsbD 18 = true → ∀ e ∈ c.2.elems, e.addr ∈ allTagged cs

/-- Pointers to objects of the collections become pointers to distinct objects, all others become null. -/
structure Pointers (cs : List (Str × Collection)) (T : Nat → Nat) : Prop where
  null : ∀ a, a ∉ allTagged cs → T a = 0
  nonNull : ∀ a ∈ allTagged cs, T a ≠ 0
  distinct : ∀ a ∈ allTagged cs, ∀ b ∈ allTagged cs, T a = T b → a = b

/-- The collections that are wanted by the reader. -/
def wantedCols (wanted : List Str) (cs : List (Str × Collection)) : List (Str × Collection) :=
  cs.filter fun c => wanted.isEmpty || wanted.contains c.1

/-- Write an event and read it back. -/
def storeLoadEvent (std : Std Pid) (ignoreNull : Bool) (only wanted : List Str) (buf : Str × Str) (opts : W32) (next : Nat) (h : EventHeader)
    (cols : List (Str × Collection)) : Except Err (EventHeader × List (Str × Collection)) :=
  match writeEvent std only buf opts h cols with
  | .error e => .error e
  | .ok (d1, d2) => readEvent std ignoreNull wanted d1 d2 next

/-- An event that can be stored and loaded: its header and its collections can be stored, and of the collections that are loaded the
parents of MCParticles and the elements of subsets can be found. -/
structure Storable (std : Std Pid) (ignoreNull : Bool) (only wanted : List Str) (h : EventHeader) (cols : List (Str × Collection)) : Prop where
  header : EventHeaderOk { h with cols := colHeads cols }
  headerSize : Writable headerRecordName [EventHeader.block only { h with cols := colHeads cols }]
  event : EventOk std only cols
  parents : ParentsEarlier (wantedCols wanted (storedCols only cols))
  subsets : ignoreNull = true ∨ SubsetsInside (wantedCols wanted (storedCols only cols))

/-- Flag word and parameters of the collection are kept; but when writing, the handlers of vertices and of generic objects may change certain
parameters and bit 31 of the flag word of their collections. -/
structure KeptHead (c c' : Collection) : Prop where
  flag : kindD c ≠ .generic → c'.flag = c.flag
  bits : ∀ i, i ≠ 31 → c'.flag.getLsbD i = c.flag.getLsbD i
  ints : c'.params.ints = c.params.ints
  floats : c'.params.floats = c.params.floats
  strs : kindD c ≠ .vertex → kindD c ≠ .generic → c'.params.strs = c.params.strs
  vertex : kindD c = .vertex → ∀ key, key ≠ str "_lcio.VertexAlgorithmTypes" → omFind strLt key c'.params.strs = omFind strLt key c.params.strs
  generic : kindD c = .generic → ∀ key,
    (key ≠ str "TypeName" ∧ key ≠ str "DataDescription") ∨ (∃ v vs, omFind strLt key c.params.strs = some (v :: vs) ∧ v ≠ []) →
    omFind strLt key c'.params.strs = omFind strLt key c.params.strs

/-- The loaded event `(h', cols')` is what was stored: the header `h`, and the collections `cs` with their names, types and numbers of elements.
References to objects of the collections are references to the corresponding loaded objects, all others are null (`T`). Elements of
subsets are such references; other elements are related by `R`, for the flag word of their collection. -/
structure LoadedEvent (cs : List (Str × Collection)) (h h' : EventHeader) (cols' : List (Str × Collection)) (T : Nat → Nat)
    (R : W32 → Elem → Elem → Prop) : Prop where
  run : h'.run = h.run
  evt : h'.evt = h.evt
  time : h'.time = h.time
  det : h'.det = h.det
  ints : h'.params.ints = h.params.ints
  floats : h'.params.floats = h.params.floats
  strs : h'.params.strs = h.params.strs
  pointers : Pointers cs T
  names : cols'.map (fun c => (c.1, c.2.type)) = cs.map (fun c => (c.1, c.2.type))
  heads : All2 (fun c c' => KeptHead c.2 c'.2) cs cols'
  subsets : All2 (fun c c' => c.2.flag.getLsbD 18 = true → All2 (fun e e' => e' = ⟨T e.addr, none⟩) c.2.elems c'.2.elems) cs cols'
  objects : All2 (fun c c' => c.2.flag.getLsbD 18 = false → All2 (R c.2.flag) c.2.elems c'.2.elems) cs cols'

/-- The class of an object, as it is called in the type of a collection (src/cpp/src/IMPL/LCIO.cc:43-68), and the kind of handler made for it. -/
def classOf : Obj → Str × Kind
  | .mcParticle _ => (str "MCParticle", .mcParticle)
  | .simCalHit _ => (str "SimCalorimeterHit", .simCalHit)
  | .rawCalHit _ => (str "RawCalorimeterHit", .rawCalHit)
  | .calHit _ => (str "CalorimeterHit", .calHit)
  | .simTrackerHit _ => (str "SimTrackerHit", .simTrackerHit)
  | .tpcHit _ => (str "TPCHit", .tpcHit)
  | .trackerRawData _ => (str "TrackerRawData", .trackerRawData)
  | .trackerData _ => (str "TrackerData", .trackerData)
  | .trackerPulse _ => (str "TrackerPulse", .trackerPulse)
  | .trackerHit _ => (str "TrackerHit", .trackerHit)
  | .trackerHitPlane _ => (str "TrackerHitPlane", .trackerHitPlane)
  | .trackerHitZCylinder _ => (str "TrackerHitZCylinder", .trackerHitZCylinder)
  | .track _ => (str "Track", .track)
  | .cluster _ => (str "Cluster", .cluster)
  | .recoParticle _ => (str "ReconstructedParticle", .recoParticle)
  | .relation _ => (str "LCRelation", .relation)
  | .vertex _ => (str "Vertex", .vertex)
  | .strVec _ => (str "LCStrVec", .strVec)
  | .floatVec _ => (str "LCFloatVec", .floatVec)
  | .intVec _ => (str "LCIntVec", .intVec)
  | .generic _ => (str "LCGenericObject", .generic)

end Spec
