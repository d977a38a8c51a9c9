import Verif.Lcio.Setters
import Verif.Lcio.Collection
import Verif.Lcio.Memory
/-
An event in memory with its collections and their elements: the access mode, and calls of member functions that change something.
-/
namespace Lcio
open Sio

/-- Calls of member functions that change an element. `LCFloatVec`, `LCIntVec` and `LCStrVec` are `std::vector`s. -/
inductive ObjSetter where
  | mcParticle (s : MCParticle.Setter) | simCalHit (s : SimCalHit.Setter) | rawCalHit (s : RawCalHit.Setter) | calHit (s : CalHit.Setter)
  | simTrackerHit (s : SimTrackerHit.Setter) | tpcHit (s : TPCHit.Setter) | trackerRawData (s : TrackerRawData.Setter)
  | trackerData (s : TrackerData.Setter) | trackerPulse (s : TrackerPulse.Setter) | trackerHit (s : TrackerHit.Setter)
  | trackerHitPlane (s : TrackerHitPlane.Setter) | trackerHitZCylinder (s : TrackerHitZCylinder.Setter) | track (s : Track.Setter)
  | cluster (s : Cluster.Setter) | recoParticle (s : RecoParticle.Setter) | relation (s : Relation.Setter) | vertex (s : Vertex.Setter)
  | strVec (l : List Str) | floatVec (l : List W32) | intVec (l : List W32) | generic (s : Generic.Setter)
  /-- a call on entry `i` of `getTrackStates()` -/
  | trackState (i : Nat) (s : TrackState.Setter)
  /-- a call on entry `i` of `getParticleIDs()` -/
  | particleID (i : Nat) (s : Pid.Setter)

/-- A call on one of the parts of an object: undefined behaviour if there is no such part. -/
def changeAt {α σ : Type} (change : α → σ → Except Err α) (l : List α) (i : Nat) (s : σ) : Except Err (List α) := match l[i]? with
  | none => .error .ub
  | some x => do return l.set i (← change x s)

/-- A call on an object. The compiler does not allow the call of a member function of another class; the model has no result then.
Track states and particle ids have an access mode of their own, which nothing in the library sets: they are never read-only. -/
def Obj.change (std : Std Pid) (ro : Bool) : Obj → ObjSetter → Option (Except Err Obj)
  | .mcParticle o, .mcParticle s => some ((o.change std ro s).map .mcParticle)
  | .simCalHit o, .simCalHit s => some ((o.change ro s).map .simCalHit)
  | .rawCalHit o, .rawCalHit s => some ((o.change ro s).map .rawCalHit)
  | .calHit o, .calHit s => some ((o.change ro s).map .calHit)
  | .simTrackerHit o, .simTrackerHit s => some ((o.change ro s).map .simTrackerHit)
  | .tpcHit o, .tpcHit s => some ((o.change ro s).map .tpcHit)
  | .trackerRawData o, .trackerRawData s => some ((o.change ro s).map .trackerRawData)
  | .trackerData o, .trackerData s => some ((o.change ro s).map .trackerData)
  | .trackerPulse o, .trackerPulse s => some ((o.change ro s).map .trackerPulse)
  | .trackerHit o, .trackerHit s => some ((o.change ro s).map .trackerHit)
  | .trackerHitPlane o, .trackerHitPlane s => some ((o.change ro s).map .trackerHitPlane)
  | .trackerHitZCylinder o, .trackerHitZCylinder s => some ((o.change ro s).map .trackerHitZCylinder)
  | .track o, .track s => some ((o.change ro s).map .track)
  | .cluster o, .cluster s => some ((o.change std ro s).map .cluster)
  | .recoParticle o, .recoParticle s => some ((o.change std ro s).map .recoParticle)
  | .relation o, .relation s => some ((o.change ro s).map .relation)
  | .vertex o, .vertex s => some ((o.change ro s).map .vertex)
  | .strVec _, .strVec l => some (.ok (.strVec l))
  | .floatVec _, .floatVec l => some (.ok (.floatVec l))
  | .intVec _, .intVec l => some (.ok (.intVec l))
  | .generic o, .generic s => some ((o.change ro s).map .generic)
  | .track o, .trackState i s => some ((changeAt (TrackState.change false) o.states i s).map fun l => .track { o with states := l })
  | .cluster o, .particleID i s => some ((changeAt (Pid.change false) o.pids i s).map fun l => .cluster { o with pids := l })
  | .recoParticle o, .particleID i s => some ((changeAt (Pid.change false) o.pids i s).map fun l => .recoParticle { o with pids := l })
  | _, _ => none

/-- `dynamic_cast<AccessChecked*>` of an element is not null: the base classes in src/cpp/include/IMPL/*.h. `UTIL::LCFixedObject` and
`LCTypedVector` (`LCFloatVec` and so on, src/cpp/include/pre-generated/EVENT/LCVec.h) are not derived from `AccessChecked`. -/
def Obj.accessChecked : Obj → Bool
  | .strVec _ | .floatVec _ | .intVec _ => false
  | _ => true

/-- An event with what it refers to. `head`: the data members of `LCEventImpl` (`head.cols` is not used); `event`: its collections and its access
mode; `cols`: the collections by address, with their `_readOnly` (an address without one is an implementation of `LCCollection` that is not derived from
`AccessChecked`); `objs`: the elements by address, with `_readOnly`. -/
structure Live where
  head : EventHeader := {}
  event : EventObj := {}
  cols : Nat → Option (ColObj × Bool) := fun _ => none
  objs : Nat → Option (Obj × Bool) := fun _ => none

/-- `AccessChecked::setReadOnly` of an element, src/cpp/src/IMPL/AccessChecked.cc:14-16. -/
def Live.setElement (m : Live) (ro : Bool) (a : Nat) : Live :=
  { m with objs := fun b => if b = a then (m.objs a).map fun o => if o.1.accessChecked then (o.1, ro) else o else m.objs b }

/-- `LCCollectionVec::setReadOnly`, src/cpp/src/IMPL/LCCollectionVec.cc:20-31. -/
def Live.setCollection (m : Live) (ro : Bool) (c : Nat) : Live := match m.cols c with
  | none => m
  | some (k, _) => k.elems.foldl (·.setElement ro ·) { m with cols := fun b => if b = c then some (k, ro) else m.cols b }

/-- `LCEventImpl::setAccessMode`, src/cpp/src/IMPL/LCEventImpl.cc:174-190. `EVENT::LCIO::READ_ONLY` is 0, `UPDATE` 1. -/
def Live.setAccessMode (m : Live) (accessMode : W32) : Live :=
  let ro := accessMode == 0
  (m.event.colMap.map (·.2)).foldl (·.setCollection ro ·) { m with event := { m.event with readOnly := ro } }

/-- A call of a member function that changes an event, one of its collections, or an element. -/
inductive LiveCall where
  | event (s : EventHeader.Setter)
  /-- `LCEventImpl::addCollection` -/
  | add (col : Nat) (name : Str)
  /-- `LCEventImpl::removeCollection` -/
  | remove (name : Str)
  | collection (c : Nat) (s : ColObj.Setter)
  | element (a : Nat) (s : ObjSetter)

/-- One call: an exception, if there is one, and the memory afterwards. A call on an object that does not exist is undefined behaviour. -/
def Live.call (std : Std Pid) (m : Live) : LiveCall → Option Err × Live
  | .event s => match m.head.change std m.event.readOnly s with
    | .ok h => (none, { m with head := h })
    | .error e => (some e, m)
  | .add c n => match m.event.addCollection c n with
    | .ok e => (none, { m with event := e })
    | .error x => (some x, m)
  | .remove n => match m.event.removeCollection n with
    | .ok e => (none, { m with event := e })
    | .error x => (some x, m)
  | .collection c s => match m.cols c with
    | none => (some .ub, m)
    | some (k, ro) => match k.change ro s with
      | .ok k' => (none, { m with cols := fun b => if b = c then some (k', ro) else m.cols b })
      | .error e => (some e, m)
  | .element a s => match m.objs a with
    | none => (some .ub, m)
    | some (o, ro) => match o.change std ro s with
      | none => (some .ub, m)
      | some (.ok o') => (none, { m with objs := fun b => if b = a then some (o', ro) else m.objs b })
      | some (.error e) => (some e, m)

/-- A sequence of calls by a user who catches the exceptions. -/
def Live.calls (std : Std Pid) (m : Live) : List LiveCall → List (Option Err) × Live
  | [] => ([], m)
  | c :: cs => let r := m.call std c; let r' := r.2.calls std cs; (r.1 :: r'.1, r'.2)

/-- Unpacking of an event that is unpacked when it is first used, `LCEventLazyImpl::unpackEvent`, src/cpp/src/IOIMPL/LCEventLazyImpl.cc:56-77: objects
are created and stored in their collections (src/cpp/src/SIO/SIOCollectionHandler.cc:36-71: the vector is resized and its entries are assigned). `content` gives for each collection the
addresses and the objects. -/
def Live.unpack (m : Live) : List (Nat × List (Nat × Obj)) → Live
  | [] => m
  | (c, os) :: cs =>
    let m := { m with objs := fun b => match os.find? fun o : Nat × Obj => o.1 == b with | some o => some (o.2, false) | none => m.objs b,
                      cols := fun b => if b = c then (m.cols c).map fun k : ColObj × Bool => ({ k.1 with elems := os.map (fun o : Nat × Obj => o.1) }, k.2) else m.cols b }
    m.unpack cs

end Lcio
