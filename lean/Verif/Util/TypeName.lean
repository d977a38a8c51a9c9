import Verif.Lcio.Collection
/-
Names of types, src/cpp/include/UTIL/LCIOTypeInfo.h.
-/
namespace Util
open Sio Lcio

/-- `dynamic_cast<const EVENT::T*>( o ) != 0` where the class `T` has the given name: the objects of the class, and those of derived classes. `TrackerHitPlane` and
`TrackerHitZCylinder` are derived from `TrackerHit` (src/cpp/include/pre-generated/EVENT/TrackerHitPlane.h:30, TrackerHitZCylinder.h:28), and no other of these classes from
another one. -/
def castsTo (T : Str) : Obj → Bool
  | .mcParticle _ => T == str "MCParticle"
  | .simCalHit _ => T == str "SimCalorimeterHit"
  | .rawCalHit _ => T == str "RawCalorimeterHit"
  | .calHit _ => T == str "CalorimeterHit"
  | .simTrackerHit _ => T == str "SimTrackerHit"
  | .tpcHit _ => T == str "TPCHit"
  | .trackerRawData _ => T == str "TrackerRawData"
  | .trackerData _ => T == str "TrackerData"
  | .trackerPulse _ => T == str "TrackerPulse"
  | .trackerHit _ => T == str "TrackerHit"
  | .trackerHitPlane _ => T == str "TrackerHitPlane" || T == str "TrackerHit"
  | .trackerHitZCylinder _ => T == str "TrackerHitZCylinder" || T == str "TrackerHit"
  | .track _ => T == str "Track"
  | .cluster _ => T == str "Cluster"
  | .recoParticle _ => T == str "ReconstructedParticle"
  | .relation _ => T == str "LCRelation"
  | .vertex _ => T == str "Vertex"
  | .strVec _ => T == str "LCStrVec"
  | .floatVec _ => T == str "LCFloatVec"
  | .intVec _ => T == str "LCIntVec"
  | .generic _ => T == str "LCGenericObject"

/-- The classes in the order in which they are tried, LCIOTypeInfo.h:92-113. -/
def triedTypes : List Str :=
  [str "MCParticle", str "SimCalorimeterHit", str "CalorimeterHit", str "RawCalorimeterHit", str "SimTrackerHit", str "TrackerRawData", str "TrackerData", str "TrackerPulse",
   str "TrackerHit", str "TrackerHitPlane", str "TrackerHitZCylinder", str "LCStrVec", str "LCFloatVec", str "LCIntVec", str "Track", str "Cluster",
   str "ReconstructedParticle", str "LCRelation", str "LCGenericObject", str "Vertex"]

/-- `lctypename( const EVENT::LCObject* o )`, LCIOTypeInfo.h:90-116, for an object that is there. -/
def lctypename (o : Obj) : Str := match triedTypes.find? fun T => castsTo T o with
  | some T => T
  | none => str "UNKNOWN"

end Util
