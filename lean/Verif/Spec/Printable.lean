import Verif.Spec.Sound
import Verif.Util.BitField
import Verif.Util.Pid
/-
Events that can be printed in detail. (C102)
-/
namespace Spec
open Sio Lcio Util

/-- There is an object in the event at this address. -/
def HasObject (cols : List (Str × Collection)) (p : Nat) (o : Obj) : Prop := ∃ c ∈ cols, ∃ e ∈ c.2.elems, e.addr = p ∧ e.obj = some o

/-- An object is of a class or of one derived from it. -/
def OfClass (T : Str) (o : Obj) : Prop :=
  (classOf o).1 = T ∨ T = str "TrackerHit" ∧ ((classOf o).1 = str "TrackerHitPlane" ∨ (classOf o).1 = str "TrackerHitZCylinder")

/-- The pointers of an object to objects of one class, with the name of the class. -/
def typedPointers : Obj → List (Nat × Str)
  | .mcParticle o => o.daughters.map (·, str "MCParticle")
  | .simCalHit o => o.conts.map (·.particle, str "MCParticle")
  | .simTrackerHit o => [(o.particle, str "MCParticle")]
  | .trackerPulse o => [(o.corrData, str "TrackerData")]
  | .track o => o.tracks.map (·, str "Track") ++ o.hits.map (·, str "TrackerHit")
  | .cluster o => o.clusters.map (·, str "Cluster") ++ o.hits.map (·, str "CalorimeterHit")
  | .recoParticle o => (o.startVertex, str "Vertex") :: (o.particles.map (·, str "ReconstructedParticle") ++ o.tracks.map (·, str "Track") ++ o.clusters.map (·, str "Cluster"))
  | .vertex o => [(o.particle, str "ReconstructedParticle")]
  | _ => []

/-- What an event needs, besides what can be relied on in every event that was read. -/
structure Printable (cols : List (Str × Collection)) : Prop where
  /-- The pointers in subset collections lead to objects of the class of the collection. -/
  subsets : ∀ c ∈ cols, ∀ e ∈ c.2.elems, e.obj = none → ∃ o, HasObject cols e.addr o ∧ OfClass c.2.type o
  /-- Pointers are null or lead to objects of the right class. -/
  typed : ∀ p o, HasObject cols p o → ∀ q ∈ typedPointers o, q.1 = 0 ∨ ∃ o', HasObject cols q.1 o' ∧ OfClass q.2 o'
  /-- The particle id used of a particle is none, or one of a particle of the event. -/
  used : ∀ p o, HasObject cols p (.recoParticle o) → o.pidUsed = 0 ∨ ∃ p' o', HasObject cols p' (.recoParticle o') ∧ ∃ i ∈ o'.pids, i.addr = o.pidUsed
  /-- The particles that a particle consists of are there. -/
  particles : ∀ p o, HasObject cols p (.recoParticle o) → 0 ∉ o.particles
  /-- The daughters of a particle are there. -/
  daughters : ∀ p o, HasObject cols p (.mcParticle o) → 0 ∉ o.daughters
  /-- No cluster has more hits than contributions of hits. -/
  contributions : ∀ p o, HasObject cols p (.cluster o) → o.hits.length ≤ o.weights.length
  /-- String parameters have values. -/
  strings : ∀ c ∈ cols, ∀ key, omFind strLt key c.2.params.strs ≠ some []
  /-- Cell ids can be decoded, if a collection says how. -/
  encodings : ∀ c ∈ cols, ∀ s rest, omFind strLt (str "CellIDEncoding") c.2.params.strs = some (s :: rest) → s = [] ∨ ∃ b, BitField.make s = .ok b
  /-- Particle ids: a `PIDHandler` can be made for a collection of clusters or particles, and the particle ids of clusters have a parameter for each name that their algorithm has. -/
  algorithms : ∀ c ∈ cols, c.2.type = str "Cluster" ∨ c.2.type = str "ReconstructedParticle" → ∃ h, (PidHandler.new c.2.type c.2.params).1 = .ok h ∧
    ∀ e ∈ c.2.elems, ∀ o, e.obj = some (.cluster o) ∨ e.obj = none ∧ HasObject cols e.addr (.cluster o) → ∀ i ∈ o.pids, ∀ names, h.getParameterNames i.algorithmType.toInt = .ok names → names.length ≤ i.params.length

end Spec
