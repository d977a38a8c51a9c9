import Verif.Spec.Event
import Verif.Spec.Damage
/-
What can be relied on in every event that has been read, whatever was in the file. (C99)
-/
namespace Spec
open Sio Lcio

/-- The pointers to other objects that an object holds and hands out, class by class. -/
def pointersOf : Obj → List Nat
  | .mcParticle o => o.parents ++ o.daughters
  | .simCalHit o => o.conts.map (·.particle)
  | .calHit o => [o.rawHit]
  | .simTrackerHit o => [o.particle]
  | .trackerPulse o => [o.corrData]
  | .trackerHit o => o.rawHits
  | .trackerHitPlane o => o.rawHits
  | .trackerHitZCylinder o => o.rawHits
  | .track o => o.tracks ++ o.hits
  | .cluster o => o.clusters ++ o.hits
  | .recoParticle o => o.pidUsed :: o.startVertex :: (o.particles ++ o.tracks ++ o.clusters)
  | .relation o => [o.from_, o.to]
  | .vertex o => [o.particle]
  | _ => []

/-- The particle ids of a reconstructed particle are objects that can be pointed at. -/
def pidAddrsOf : Obj → List Nat
  | .recoParticle o => o.pids.map (·.addr)
  | _ => []

/-- The addresses of the objects that an element brings with it: none if it is only a pointer (in a subset collection). -/
def ownedBy (e : Elem) : List Nat := match e.obj with
  | none => []
  | some o => e.addr :: pidAddrsOf o

/-- The pointers in an element. -/
def heldBy (e : Elem) : List Nat := match e.obj with
  | none => [e.addr]
  | some o => pointersOf o

/-- The addresses of all objects of an event. -/
def objectsIn (cols : List (Str × Collection)) : List Nat := cols.flatMap fun c => c.2.elems.flatMap ownedBy

/-- All pointers in an event. -/
def pointersIn (cols : List (Str × Collection)) : List Nat := cols.flatMap fun c => c.2.elems.flatMap heldBy

/-- What can be relied on in an event that has been read. -/
structure Sound (cols : List (Str × Collection)) : Prop where
  /-- Objects are of the class that the type of the collection names. -/
  classes : ∀ c ∈ cols, ∀ e ∈ c.2.elems, ∀ o, e.obj = some o → (classOf o).1 = c.2.type
  /-- Collections have objects, and subset collections have pointers. -/
  objects : ∀ c ∈ cols, ∀ e ∈ c.2.elems, (e.obj = none ↔ c.2.flag.getLsbD 18 = true)
  /-- No two objects are at the same address. -/
  distinct : (objectsIn cols).Nodup
  /-- No object is at address 0. -/
  real : 0 ∉ objectsIn cols
  /-- Pointers are null or point to an object of the event. -/
  pointers : ∀ p ∈ pointersIn cols, p = 0 ∨ p ∈ objectsIn cols

/-- No collection is in the record twice. -/
def OnceEach (std : Std Pid) (hdr : EventHeader) (data : List Byte) : Prop :=
  ∀ res, readBlocks data (eventDecoders std hdr.cols) = .ok res → (res.1.map (·.1)).Nodup

/-- No event record in a file has a collection twice. -/
def OnceIn (cfg : RConfig) (file : List Byte) : Prop :=
  ∀ hdata hdr data, Recorded cfg.codec file headerRecordName hdata → decodeHeader cfg hdata = .ok hdr → Recorded cfg.codec file eventRecordName data → OnceEach cfg.std hdr data

end Spec
