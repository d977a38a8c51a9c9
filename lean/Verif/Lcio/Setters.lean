import Verif.Lcio.Build
import Verif.Lcio.Headers
import Verif.Util.Flags
/-
The member functions that change objects, with their access checks, and those that return what is in an object.
-/
namespace Lcio
open Sio Util

/-- A value returned by a getter. `float`s and `double`s are given by their bits. Arrays (`const float*`) are given by their entries. -/
inductive Val where
  | w32 (v : W32) | w64 (v : W64) | f32s (v : List W32) | f64s (v : List W64) | i16s (v : List W16)
  | ptr (v : Nat) | ptrs (v : List Nat) | text (v : Str) | texts (v : List Str) | flag (v : Bool)
  | pids (v : List Pid) | conts (v : List SimCont)
  /-- undefined behaviour -/
  | undef
  deriving DecidableEq, Repr

/-- `_x[i] = v[i]` for `i < n`, where `v` is a pointer to `v.length` numbers, or a vector: reading behind the end is undefined behaviour. -/
def copyArray {α : Type} (n : Nat) (v : List α) : Except Err (List α) := if v.length < n then .error .ub else .ok (v.take n)

/-- `if(val) w |= (1 << bit); else w &= ~(1 << bit)`: `setQualityBit` of the tracker hits, e.g. src/cpp/src/IMPL/TrackerHitImpl.cc:127-134. -/
def setWordBit (w : W32) (bit : Int) (val : Bool) : Except Err W32 := do
  let m ← oneShl bit
  return if val then w ||| m else w &&& ~~~m

/-- `w.set(bit, val)` and `w[bit] = val` of a `std::bitset<32>`. -/
def setBitsetBit (w : W32) (bit : Int) (val : Bool) : Except Err W32 := if val then set_bit w bit else unset_bit w bit

/-- `EVT_WGT`, src/cpp/src/IMPL/LCEventImpl.cc:6. -/
def weightKey : Str := str "_weight"

/-- `IMPL::LCCollectionVec`, src/cpp/include/IMPL/LCCollectionVec.h, in memory: the elements are pointers. -/
structure ColObj where
  type : Str := []
  flag : W32 := 0
  params : Params := {}
  elems : List Nat := []
  deriving DecidableEq, Repr

/-! ## MCParticleImpl -/

namespace MCParticle

/-- The member functions of `MCParticleImpl` that change it (src/cpp/src/IMPL/MCParticleImpl.cc, by line). -/
inductive Setter where
  /-- 209-216 -/
  | addDaughter (v : Nat)
  /-- 218-232: the second half, `mom->addDaughter(this)`, changes another object, see `addParent` in Lcio/Build.lean -/
  | addParent (v : Nat)
  /-- 234-237 -/
  | setPDG (v : W32)
  /-- 238-241 -/
  | setGeneratorStatus (v : W32)
  /-- 243-248 -/
  | setSimulatorStatus (v : W32)
  /-- 250-255 -/
  | setVertex (v : List W64)
  /-- 256-259 -/
  | setTime (v : W32)
  /-- 261-266 -/
  | setMomentumFloat (v : List W32)
  /-- 267-272 -/
  | setMomentum (v : List W64)
  /-- 274-279 -/
  | setMomentumAtEndpointFloat (v : List W32)
  /-- 280-285 -/
  | setMomentumAtEndpoint (v : List W64)
  /-- 287-290 -/
  | setMass (v : W32)
  /-- 291-294 -/
  | setCharge (v : W32)
  /-- 296-304: also sets bit 31 of the simulator status -/
  | setEndpoint (v : List W64)
  /-- 306-311 -/
  | setSpin (v : List W32)
  /-- 313-317 -/
  | setColorFlow (v : List W32)
  /-- 319, no access check -/
  | setCreatedInSimulation (val : Bool)
  /-- 320, no access check -/
  | setBackscatter (val : Bool)
  /-- 321, no access check -/
  | setVertexIsNotEndpointOfParent (val : Bool)
  /-- 322, no access check -/
  | setDecayedInTracker (val : Bool)
  /-- 323, no access check -/
  | setDecayedInCalorimeter (val : Bool)
  /-- 324, no access check -/
  | setHasLeftDetector (val : Bool)
  /-- 325, no access check -/
  | setStopped (val : Bool)
  /-- 326, no access check -/
  | setOverlay (val : Bool)

/-- The member functions that return its contents. -/
inductive Getter where
  /-- 71 -/
  | getDaughters
  /-- 67 -/
  | getParents
  /-- 172 -/
  | getPDG
  /-- 173 -/
  | getGeneratorStatus
  /-- 175-179 -/
  | getSimulatorStatus
  /-- 193 -/
  | getVertex
  /-- 194 -/
  | getTime
  /-- 195 -/
  | getMomentum
  /-- 196 -/
  | getMomentumAtEndpoint
  /-- 197 -/
  | getMass
  /-- 198 -/
  | getCharge
  /-- 163 -/
  | getSpin
  /-- 167 -/
  | getColorFlow
  deriving DecidableEq, Repr

/-- What a member function returns: src/cpp/src/IMPL/MCParticleImpl.cc, the lines given with `Getter`. -/
def get (o : MCParticle) : Getter → Val
  | .getDaughters => .ptrs o.daughters
  | .getParents => .ptrs o.parents
  | .getPDG => .w32 o.pdg
  | .getGeneratorStatus => .w32 o.genStatus
  | .getSimulatorStatus => .w32 o.simStatus
  | .getVertex => .f64s o.vertex
  | .getTime => .w32 o.time
  | .getMomentum => .f64s o.p
  | .getMomentumAtEndpoint => .f64s o.pEndpoint
  | .getMass => .w64 o.mass
  | .getCharge => .w32 o.charge
  | .getSpin => .f32s o.spin
  | .getColorFlow => .f32s o.colorFlow

/-- A call of a member function on an object that is read-only (`ro`) or not. -/
def change (std : Std Lcio.Pid) (ro : Bool) (o : MCParticle) : Setter → Except Err MCParticle
  | .addDaughter v => if ro then .error .readOnly else .ok { o with daughters := o.daughters ++ [v] }
  | .addParent v => if ro then .error .readOnly else .ok { o with parents := if o.parents.contains v then o.parents else o.parents ++ [v] }
  | .setPDG v => if ro then .error .readOnly else .ok { o with pdg := v }
  | .setGeneratorStatus v => if ro then .error .readOnly else .ok { o with genStatus := v }
  | .setSimulatorStatus v => if ro then .error .readOnly else .ok { o with simStatus := v }
  | .setVertex v => if ro then .error .readOnly else do return { o with vertex := ← copyArray 3 v }
  | .setTime v => if ro then .error .readOnly else .ok { o with time := v }
  | .setMomentumFloat v => if ro then .error .readOnly else do return { o with p := (← copyArray 3 v).map std.widen }
  | .setMomentum v => if ro then .error .readOnly else do return { o with p := ← copyArray 3 v }
  | .setMomentumAtEndpointFloat v => if ro then .error .readOnly else do return { o with pEndpoint := (← copyArray 3 v).map std.widen }
  | .setMomentumAtEndpoint v => if ro then .error .readOnly else do return { o with pEndpoint := ← copyArray 3 v }
  | .setMass v => if ro then .error .readOnly else .ok { o with mass := std.widen v }
  | .setCharge v => if ro then .error .readOnly else .ok { o with charge := v }
  | .setEndpoint v => if ro then .error .readOnly else do return { o with simStatus := ← setBitsetBit o.simStatus 31 true, endpoint := ← copyArray 3 v }
  | .setSpin v => if ro then .error .readOnly else do return { o with spin := ← copyArray 3 v }
  | .setColorFlow v => if ro then .error .readOnly else do return { o with colorFlow := ← copyArray 2 v }
  | .setCreatedInSimulation val => do return { o with simStatus := ← setBitsetBit o.simStatus 30 val }
  | .setBackscatter val => do return { o with simStatus := ← setBitsetBit o.simStatus 29 val }
  | .setVertexIsNotEndpointOfParent val => do return { o with simStatus := ← setBitsetBit o.simStatus 28 val }
  | .setDecayedInTracker val => do return { o with simStatus := ← setBitsetBit o.simStatus 27 val }
  | .setDecayedInCalorimeter val => do return { o with simStatus := ← setBitsetBit o.simStatus 26 val }
  | .setHasLeftDetector val => do return { o with simStatus := ← setBitsetBit o.simStatus 25 val }
  | .setStopped val => do return { o with simStatus := ← setBitsetBit o.simStatus 24 val }
  | .setOverlay val => do return { o with simStatus := ← setBitsetBit o.simStatus 23 val }

end MCParticle

/-! ## SimCalorimeterHitImpl -/

namespace SimCalHit

/-- The member functions of `SimCalorimeterHitImpl` that change it (src/cpp/src/IMPL/SimCalorimeterHitImpl.cc, by line). -/
inductive Setter where
  /-- 121-124 -/
  | setCellID0 (v : W32)
  /-- 126-129 -/
  | setCellID1 (v : W32)
  /-- 131-134 -/
  | setEnergy (v : W32)
  /-- 136-141 -/
  | setPosition (v : List W32)
  /-- 144-167 -/
  | addMCParticleContribution (p : Nat) (en : W32) (t : W32)
  /-- 171-189 -/
  | addMCParticleContributionStep (p : Nat) (en : W32) (t : W32) (l : W32) (pdg : W32) (stepPos : Option (List W32))

/-- The member functions that return its contents. -/
inductive Getter where
  /-- 63 -/
  | getCellID0
  /-- 67 -/
  | getCellID1
  /-- 71 -/
  | getEnergy
  /-- 75 -/
  | getPosition
  /-- 79-119 -/
  | getContributions
  deriving DecidableEq, Repr

/-- What a member function returns: src/cpp/src/IMPL/SimCalorimeterHitImpl.cc, the lines given with `Getter`. -/
def get (o : SimCalHit) : Getter → Val
  | .getCellID0 => .w32 o.cellID0
  | .getCellID1 => .w32 o.cellID1
  | .getEnergy => .w32 o.energy
  | .getPosition => .f32s o.position
  | .getContributions => .conts o.conts

/-- A call of a member function on an object that is read-only (`ro`) or not. -/
def change (ro : Bool) (o : SimCalHit) : Setter → Except Err SimCalHit
  | .setCellID0 v => if ro then .error .readOnly else .ok { o with cellID0 := v }
  | .setCellID1 v => if ro then .error .readOnly else .ok { o with cellID1 := v }
  | .setEnergy v => if ro then .error .readOnly else .ok { o with energy := v }
  | .setPosition v => if ro then .error .readOnly else do return { o with position := ← copyArray 3 v }
  | .addMCParticleContribution p en t => if ro then .error .readOnly else .ok (o.addShort ieeeAdd p en t)
  | .addMCParticleContributionStep p en t l pdg stepPos => if ro then .error .readOnly else .ok (o.addLong ieeeAdd p en t l pdg stepPos)

end SimCalHit

/-! ## CalorimeterHitImpl -/

namespace CalHit

/-- The member functions of `CalorimeterHitImpl` that change it (src/cpp/src/IMPL/CalorimeterHitImpl.cc, by line). -/
inductive Setter where
  /-- 53-56 -/
  | setCellID0 (v : W32)
  /-- 58-61 -/
  | setCellID1 (v : W32)
  /-- 63-66 -/
  | setEnergy (v : W32)
  /-- 68-71 -/
  | setEnergyError (v : W32)
  /-- 73-76 -/
  | setTime (v : W32)
  /-- 78-84 -/
  | setPosition (v : List W32)
  /-- 86-89 -/
  | setType (v : W32)
  /-- 91-94 -/
  | setRawHit (v : Nat)

/-- The member functions that return its contents. -/
inductive Getter where
  /-- 22 -/
  | getCellID0
  /-- 26 -/
  | getCellID1
  /-- 30 -/
  | getEnergy
  /-- 34 -/
  | getEnergyError
  /-- 38 -/
  | getTime
  /-- 42 -/
  | getPosition
  /-- 46 -/
  | getType
  /-- 49 -/
  | getRawHit
  deriving DecidableEq, Repr

/-- What a member function returns: src/cpp/src/IMPL/CalorimeterHitImpl.cc, the lines given with `Getter`. -/
def get (o : CalHit) : Getter → Val
  | .getCellID0 => .w32 o.cellID0
  | .getCellID1 => .w32 o.cellID1
  | .getEnergy => .w32 o.energy
  | .getEnergyError => .w32 o.energyError
  | .getTime => .w32 o.time
  | .getPosition => .f32s o.position
  | .getType => .w32 o.type
  | .getRawHit => .ptr o.rawHit

/-- A call of a member function on an object that is read-only (`ro`) or not. -/
def change (ro : Bool) (o : CalHit) : Setter → Except Err CalHit
  | .setCellID0 v => if ro then .error .readOnly else .ok { o with cellID0 := v }
  | .setCellID1 v => if ro then .error .readOnly else .ok { o with cellID1 := v }
  | .setEnergy v => if ro then .error .readOnly else .ok { o with energy := v }
  | .setEnergyError v => if ro then .error .readOnly else .ok { o with energyError := v }
  | .setTime v => if ro then .error .readOnly else .ok { o with time := v }
  | .setPosition v => if ro then .error .readOnly else do return { o with position := ← copyArray 3 v }
  | .setType v => if ro then .error .readOnly else .ok { o with type := v }
  | .setRawHit v => if ro then .error .readOnly else .ok { o with rawHit := v }

end CalHit

/-! ## RawCalorimeterHitImpl -/

namespace RawCalHit

/-- The member functions of `RawCalorimeterHitImpl` that change it (src/cpp/src/IMPL/RawCalorimeterHitImpl.cc, by line). -/
inductive Setter where
  /-- 34-37 -/
  | setCellID0 (v : W32)
  /-- 39-42 -/
  | setCellID1 (v : W32)
  /-- 44-47 -/
  | setAmplitude (v : W32)
  /-- 49-52 -/
  | setTimeStamp (v : W32)

/-- The member functions that return its contents. -/
inductive Getter where
  /-- 16 -/
  | getCellID0
  /-- 20 -/
  | getCellID1
  /-- 24 -/
  | getAmplitude
  /-- 28 -/
  | getTimeStamp
  deriving DecidableEq, Repr

/-- What a member function returns: src/cpp/src/IMPL/RawCalorimeterHitImpl.cc, the lines given with `Getter`. -/
def get (o : RawCalHit) : Getter → Val
  | .getCellID0 => .w32 o.cellID0
  | .getCellID1 => .w32 o.cellID1
  | .getAmplitude => .w32 o.amplitude
  | .getTimeStamp => .w32 o.timeStamp

/-- A call of a member function on an object that is read-only (`ro`) or not. -/
def change (ro : Bool) (o : RawCalHit) : Setter → Except Err RawCalHit
  | .setCellID0 v => if ro then .error .readOnly else .ok { o with cellID0 := v }
  | .setCellID1 v => if ro then .error .readOnly else .ok { o with cellID1 := v }
  | .setAmplitude v => if ro then .error .readOnly else .ok { o with amplitude := v }
  | .setTimeStamp v => if ro then .error .readOnly else .ok { o with timeStamp := v }

end RawCalHit

/-! ## SimTrackerHitImpl -/

namespace SimTrackerHit

/-- The member functions of `SimTrackerHitImpl` that change it (src/cpp/src/IMPL/SimTrackerHitImpl.cc, by line). -/
inductive Setter where
  /-- 64-67 -/
  | setCellID0 (v : W32)
  /-- 69-72 -/
  | setCellID1 (v : W32)
  /-- 74-79 -/
  | setPosition (v : List W64)
  /-- 82-86 -/
  | setdEdx (v : W32)
  /-- 88-91 -/
  | setEDep (v : W32)
  /-- 93-96 -/
  | setTime (v : W32)
  /-- 98-101 -/
  | setMCParticle (v : Nat)
  /-- 103-115 -/
  | setMomentum (v : List W32)
  /-- 117-120 -/
  | setPathLength (v : W32)
  /-- 122-125 -/
  | setQuality (v : W32)
  /-- 127-133 -/
  | setQualityBit (bit : Int) (val : Bool)
  /-- 138 -/
  | setOverlay (val : Bool)
  /-- 139 -/
  | setProducedBySecondary (val : Bool)

/-- The member functions that return its contents. -/
inductive Getter where
  /-- 43 -/
  | getCellID0
  /-- 44 -/
  | getCellID1
  /-- 46 -/
  | getPosition
  /-- 54 -/
  | getEDep
  /-- 56 -/
  | getTime
  /-- 58 -/
  | getMCParticle
  /-- 62 -/
  | getMomentum
  /-- 60 -/
  | getPathLength
  /-- SimTrackerHitImpl.h:92 -/
  | getQuality
  deriving DecidableEq, Repr

/-- What a member function returns: src/cpp/src/IMPL/SimTrackerHitImpl.cc, the lines given with `Getter`. -/
def get (o : SimTrackerHit) : Getter → Val
  | .getCellID0 => .w32 o.cellID0
  | .getCellID1 => .w32 o.cellID1
  | .getPosition => .f64s o.pos
  | .getEDep => .w32 o.eDep
  | .getTime => .w32 o.time
  | .getMCParticle => .ptr o.particle
  | .getMomentum => .f32s o.p
  | .getPathLength => .w32 o.pathLength
  | .getQuality => .w32 o.quality

/-- A call of a member function on an object that is read-only (`ro`) or not. -/
def change (ro : Bool) (o : SimTrackerHit) : Setter → Except Err SimTrackerHit
  | .setCellID0 v => if ro then .error .readOnly else .ok { o with cellID0 := v }
  | .setCellID1 v => if ro then .error .readOnly else .ok { o with cellID1 := v }
  | .setPosition v => if ro then .error .readOnly else do return { o with pos := ← copyArray 3 v }
  | .setdEdx v => if ro then .error .readOnly else .ok { o with eDep := v }
  | .setEDep v => if ro then .error .readOnly else .ok { o with eDep := v }
  | .setTime v => if ro then .error .readOnly else .ok { o with time := v }
  | .setMCParticle v => if ro then .error .readOnly else .ok { o with particle := v }
  | .setMomentum v => if ro then .error .readOnly else do return { o with p := ← copyArray 3 v }
  | .setPathLength v => if ro then .error .readOnly else .ok { o with pathLength := v }
  | .setQuality v => if ro then .error .readOnly else .ok { o with quality := v }
  | .setQualityBit bit val => if ro then .error .readOnly else do return { o with quality := ← setWordBit o.quality bit val }
  | .setOverlay val => if ro then .error .readOnly else do return { o with quality := ← setWordBit o.quality 31 val }
  | .setProducedBySecondary val => if ro then .error .readOnly else do return { o with quality := ← setWordBit o.quality 30 val }

end SimTrackerHit

/-! ## TrackerHitImpl -/

namespace TrackerHit

/-- The member functions of `TrackerHitImpl` that change it (src/cpp/src/IMPL/TrackerHitImpl.cc, by line). -/
inductive Setter where
  /-- 59-62 -/
  | rawHits (v : List Nat)
  /-- 78-81 -/
  | setCellID0 (v : W32)
  /-- 83-86 -/
  | setCellID1 (v : W32)
  /-- 88-91 -/
  | setType (v : W32)
  /-- 93-98 -/
  | setPosition (v : List W64)
  /-- 101-105 -/
  | setdEdx (v : W32)
  /-- 107-110 -/
  | setEDep (v : W32)
  /-- 112-115 -/
  | setEDepError (v : W32)
  /-- 117-120 -/
  | setTime (v : W32)
  /-- 122-125 -/
  | setQuality (v : W32)
  /-- 127-134 -/
  | setQualityBit (bit : Int) (val : Bool)
  /-- 136-147 -/
  | setCovMatrix (v : List W32)

/-- The member functions that return its contents. -/
inductive Getter where
  /-- 55 -/
  | getRawHits
  /-- 32 -/
  | getCellID0
  /-- 36 -/
  | getCellID1
  /-- 74 -/
  | getType
  /-- 40 -/
  | getPosition
  /-- TrackerHitImpl.h:59 -/
  | getEDep
  /-- TrackerHitImpl.h:63 -/
  | getEDepError
  /-- 52 -/
  | getTime
  /-- TrackerHitImpl.h:83 -/
  | getQuality
  /-- 42 -/
  | getCovMatrix
  deriving DecidableEq, Repr

/-- What a member function returns: src/cpp/src/IMPL/TrackerHitImpl.cc, the lines given with `Getter`. -/
def get (o : TrackerHit) : Getter → Val
  | .getRawHits => .ptrs o.rawHits
  | .getCellID0 => .w32 o.cellID0
  | .getCellID1 => .w32 o.cellID1
  | .getType => .w32 o.type
  | .getPosition => .f64s o.pos
  | .getEDep => .w32 o.eDep
  | .getEDepError => .w32 o.eDepError
  | .getTime => .w32 o.time
  | .getQuality => .w32 o.quality
  | .getCovMatrix => .f32s o.cov

/-- A call of a member function on an object that is read-only (`ro`) or not. -/
def change (ro : Bool) (o : TrackerHit) : Setter → Except Err TrackerHit
  | .rawHits v => if ro then .error .readOnly else .ok { o with rawHits := v }
  | .setCellID0 v => if ro then .error .readOnly else .ok { o with cellID0 := v }
  | .setCellID1 v => if ro then .error .readOnly else .ok { o with cellID1 := v }
  | .setType v => if ro then .error .readOnly else .ok { o with type := v }
  | .setPosition v => if ro then .error .readOnly else do return { o with pos := ← copyArray 3 v }
  | .setdEdx v => if ro then .error .readOnly else .ok { o with eDep := v }
  | .setEDep v => if ro then .error .readOnly else .ok { o with eDep := v }
  | .setEDepError v => if ro then .error .readOnly else .ok { o with eDepError := v }
  | .setTime v => if ro then .error .readOnly else .ok { o with time := v }
  | .setQuality v => if ro then .error .readOnly else .ok { o with quality := v }
  | .setQualityBit bit val => if ro then .error .readOnly else do return { o with quality := ← setWordBit o.quality bit val }
  | .setCovMatrix v => if ro then .error .readOnly else do return { o with cov := ← copyArray 6 v }

end TrackerHit

/-! ## TrackerHitPlaneImpl -/

namespace TrackerHitPlane

/-- The member functions of `TrackerHitPlaneImpl` that change it (src/cpp/src/IMPL/TrackerHitPlaneImpl.cc, by line). -/
inductive Setter where
  /-- 38-41 -/
  | setCellID0 (v : W32)
  /-- 43-46 -/
  | setCellID1 (v : W32)
  /-- 48-51 -/
  | setType (v : W32)
  /-- 53-58 -/
  | setPosition (v : List W64)
  /-- 60-64 -/
  | setU (theta : W32) (phi : W32)
  /-- 66-70 -/
  | setV (theta : W32) (phi : W32)
  /-- 72-75 -/
  | setdU (v : W32)
  /-- 77-80 -/
  | setdV (v : W32)
  /-- 82-85 -/
  | setEDep (v : W32)
  /-- 87-90 -/
  | setEDepError (v : W32)
  /-- 92-95 -/
  | setTime (v : W32)
  /-- 97-100 -/
  | setQuality (v : W32)
  /-- 102-109 -/
  | setQualityBit (bit : Int) (val : Bool)
  /-- TrackerHitPlaneImpl.h:107, no access check -/
  | rawHits (v : List Nat)

/-- The member functions that return its contents. -/
inductive Getter where
  /-- TrackerHitPlaneImpl.h:36 -/
  | getCellID0
  /-- TrackerHitPlaneImpl.h:42 -/
  | getCellID1
  /-- TrackerHitPlaneImpl.h:92 -/
  | getType
  /-- TrackerHitPlaneImpl.h:47 -/
  | getPosition
  /-- TrackerHitPlaneImpl.h:52 -/
  | getU
  /-- TrackerHitPlaneImpl.h:57 -/
  | getV
  /-- TrackerHitPlaneImpl.h:60 -/
  | getdU
  /-- TrackerHitPlaneImpl.h:63 -/
  | getdV
  /-- TrackerHitPlaneImpl.h:78 -/
  | getEDep
  /-- TrackerHitPlaneImpl.h:82 -/
  | getEDepError
  /-- TrackerHitPlaneImpl.h:86 -/
  | getTime
  /-- TrackerHitPlaneImpl.h:97 -/
  | getQuality
  /-- TrackerHitPlaneImpl.h:102 -/
  | getRawHits
  deriving DecidableEq, Repr

/-- What a member function returns: src/cpp/src/IMPL/TrackerHitPlaneImpl.cc, the lines given with `Getter`. -/
def get (o : TrackerHitPlane) : Getter → Val
  | .getCellID0 => .w32 o.cellID0
  | .getCellID1 => .w32 o.cellID1
  | .getType => .w32 o.type
  | .getPosition => .f64s o.pos
  | .getU => .f32s o.u
  | .getV => .f32s o.v
  | .getdU => .w32 o.du
  | .getdV => .w32 o.dv
  | .getEDep => .w32 o.eDep
  | .getEDepError => .w32 o.eDepError
  | .getTime => .w32 o.time
  | .getQuality => .w32 o.quality
  | .getRawHits => .ptrs o.rawHits

/-- A call of a member function on an object that is read-only (`ro`) or not. -/
def change (ro : Bool) (o : TrackerHitPlane) : Setter → Except Err TrackerHitPlane
  | .setCellID0 v => if ro then .error .readOnly else .ok { o with cellID0 := v }
  | .setCellID1 v => if ro then .error .readOnly else .ok { o with cellID1 := v }
  | .setType v => if ro then .error .readOnly else .ok { o with type := v }
  | .setPosition v => if ro then .error .readOnly else do return { o with pos := ← copyArray 3 v }
  | .setU theta phi => if ro then .error .readOnly else .ok { o with u := [theta, phi] }
  | .setV theta phi => if ro then .error .readOnly else .ok { o with v := [theta, phi] }
  | .setdU v => if ro then .error .readOnly else .ok { o with du := v }
  | .setdV v => if ro then .error .readOnly else .ok { o with dv := v }
  | .setEDep v => if ro then .error .readOnly else .ok { o with eDep := v }
  | .setEDepError v => if ro then .error .readOnly else .ok { o with eDepError := v }
  | .setTime v => if ro then .error .readOnly else .ok { o with time := v }
  | .setQuality v => if ro then .error .readOnly else .ok { o with quality := v }
  | .setQualityBit bit val => if ro then .error .readOnly else do return { o with quality := ← setWordBit o.quality bit val }
  | .rawHits v => .ok { o with rawHits := v }

end TrackerHitPlane

/-! ## TrackerHitZCylinderImpl -/

namespace TrackerHitZCylinder

/-- The member functions of `TrackerHitZCylinderImpl` that change it (src/cpp/src/IMPL/TrackerHitZCylinderImpl.cc, by line). -/
inductive Setter where
  /-- 39-42 -/
  | setCellID0 (v : W32)
  /-- 44-47 -/
  | setCellID1 (v : W32)
  /-- 50-53 -/
  | setType (v : W32)
  /-- 55-60 -/
  | setPosition (v : List W64)
  /-- 62-66 -/
  | setCenter (xc : W32) (yc : W32)
  /-- 73-76 -/
  | setdRPhi (v : W32)
  /-- 78-81 -/
  | setdZ (v : W32)
  /-- 83-86 -/
  | setEDep (v : W32)
  /-- 88-91 -/
  | setEDepError (v : W32)
  /-- 93-96 -/
  | setTime (v : W32)
  /-- 98-101 -/
  | setQuality (v : W32)
  /-- 103-110 -/
  | setQualityBit (bit : Int) (val : Bool)
  /-- TrackerHitZCylinderImpl.h:104, no access check -/
  | rawHits (v : List Nat)

/-- The member functions that return its contents. -/
inductive Getter where
  /-- TrackerHitZCylinderImpl.h:35 -/
  | getCellID0
  /-- TrackerHitZCylinderImpl.h:41 -/
  | getCellID1
  /-- TrackerHitZCylinderImpl.h:89 -/
  | getType
  /-- TrackerHitZCylinderImpl.h:46 -/
  | getPosition
  /-- TrackerHitZCylinderImpl.h:54 -/
  | getCenter
  /-- TrackerHitZCylinderImpl.h:57 -/
  | getdRPhi
  /-- TrackerHitZCylinderImpl.h:60 -/
  | getdZ
  /-- TrackerHitZCylinderImpl.h:75 -/
  | getEDep
  /-- TrackerHitZCylinderImpl.h:79 -/
  | getEDepError
  /-- TrackerHitZCylinderImpl.h:83 -/
  | getTime
  /-- TrackerHitZCylinderImpl.h:94 -/
  | getQuality
  /-- TrackerHitZCylinderImpl.h:99 -/
  | getRawHits
  deriving DecidableEq, Repr

/-- What a member function returns: src/cpp/src/IMPL/TrackerHitZCylinderImpl.cc, the lines given with `Getter`. -/
def get (o : TrackerHitZCylinder) : Getter → Val
  | .getCellID0 => .w32 o.cellID0
  | .getCellID1 => .w32 o.cellID1
  | .getType => .w32 o.type
  | .getPosition => .f64s o.pos
  | .getCenter => .f32s o.center
  | .getdRPhi => .w32 o.dRPhi
  | .getdZ => .w32 o.dZ
  | .getEDep => .w32 o.eDep
  | .getEDepError => .w32 o.eDepError
  | .getTime => .w32 o.time
  | .getQuality => .w32 o.quality
  | .getRawHits => .ptrs o.rawHits

/-- A call of a member function on an object that is read-only (`ro`) or not. -/
def change (ro : Bool) (o : TrackerHitZCylinder) : Setter → Except Err TrackerHitZCylinder
  | .setCellID0 v => if ro then .error .readOnly else .ok { o with cellID0 := v }
  | .setCellID1 v => if ro then .error .readOnly else .ok { o with cellID1 := v }
  | .setType v => if ro then .error .readOnly else .ok { o with type := v }
  | .setPosition v => if ro then .error .readOnly else do return { o with pos := ← copyArray 3 v }
  | .setCenter xc yc => if ro then .error .readOnly else .ok { o with center := [xc, yc] }
  | .setdRPhi v => if ro then .error .readOnly else .ok { o with dRPhi := v }
  | .setdZ v => if ro then .error .readOnly else .ok { o with dZ := v }
  | .setEDep v => if ro then .error .readOnly else .ok { o with eDep := v }
  | .setEDepError v => if ro then .error .readOnly else .ok { o with eDepError := v }
  | .setTime v => if ro then .error .readOnly else .ok { o with time := v }
  | .setQuality v => if ro then .error .readOnly else .ok { o with quality := v }
  | .setQualityBit bit val => if ro then .error .readOnly else do return { o with quality := ← setWordBit o.quality bit val }
  | .rawHits v => .ok { o with rawHits := v }

end TrackerHitZCylinder

/-! ## TrackerRawDataImpl -/

namespace TrackerRawData

/-- The member functions of `TrackerRawDataImpl` that change it (src/cpp/src/IMPL/TrackerRawDataImpl.cc, by line). -/
inductive Setter where
  /-- 22-25 -/
  | setCellID0 (v : W32)
  /-- 27-30 -/
  | setCellID1 (v : W32)
  /-- 32-36 -/
  | setTime (v : W32)
  /-- 38-43 -/
  | setADCValues (v : List W16)
  /-- 38-43: the argument is the vector of the object itself, as returned by `getADCValues`: it is cleared before it is copied -/
  | setADCValuesOwn
  /-- 45-48 -/
  | adcValues (v : List W16)

/-- The member functions that return its contents. -/
inductive Getter where
  /-- TrackerRawDataImpl.h:30 -/
  | getCellID0
  /-- TrackerRawDataImpl.h:35 -/
  | getCellID1
  /-- TrackerRawDataImpl.h:40 -/
  | getTime
  /-- TrackerRawDataImpl.h:44 -/
  | getADCValues
  deriving DecidableEq, Repr

/-- What a member function returns: src/cpp/src/IMPL/TrackerRawDataImpl.cc, the lines given with `Getter`. -/
def get (o : TrackerRawData) : Getter → Val
  | .getCellID0 => .w32 o.cellID0
  | .getCellID1 => .w32 o.cellID1
  | .getTime => .w32 o.time
  | .getADCValues => .i16s o.adc

/-- A call of a member function on an object that is read-only (`ro`) or not. -/
def change (ro : Bool) (o : TrackerRawData) : Setter → Except Err TrackerRawData
  | .setCellID0 v => if ro then .error .readOnly else .ok { o with cellID0 := v }
  | .setCellID1 v => if ro then .error .readOnly else .ok { o with cellID1 := v }
  | .setTime v => if ro then .error .readOnly else .ok { o with time := v }
  | .setADCValues v => if ro then .error .readOnly else .ok { o with adc := v }
  | .setADCValuesOwn => if ro then .error .readOnly else .ok { o with adc := [] }
  | .adcValues v => if ro then .error .readOnly else .ok { o with adc := v }

end TrackerRawData

/-! ## TrackerDataImpl -/

namespace TrackerData

/-- The member functions of `TrackerDataImpl` that change it (src/cpp/src/IMPL/TrackerDataImpl.cc, by line). -/
inductive Setter where
  /-- 21-24 -/
  | setCellID0 (v : W32)
  /-- 26-29 -/
  | setCellID1 (v : W32)
  /-- 31-35 -/
  | setTime (v : W32)
  /-- 37-42 -/
  | setChargeValues (v : List W32)
  /-- 37-42: the argument is the vector of the object itself, as returned by `getChargeValues`: it is cleared before it is copied -/
  | setChargeValuesOwn
  /-- 44-47 -/
  | chargeValues (v : List W32)

/-- The member functions that return its contents. -/
inductive Getter where
  /-- TrackerDataImpl.h:30 -/
  | getCellID0
  /-- TrackerDataImpl.h:35 -/
  | getCellID1
  /-- TrackerDataImpl.h:39 -/
  | getTime
  /-- TrackerDataImpl.h:43 -/
  | getChargeValues
  deriving DecidableEq, Repr

/-- What a member function returns: src/cpp/src/IMPL/TrackerDataImpl.cc, the lines given with `Getter`. -/
def get (o : TrackerData) : Getter → Val
  | .getCellID0 => .w32 o.cellID0
  | .getCellID1 => .w32 o.cellID1
  | .getTime => .w32 o.time
  | .getChargeValues => .f32s o.charge

/-- A call of a member function on an object that is read-only (`ro`) or not. -/
def change (ro : Bool) (o : TrackerData) : Setter → Except Err TrackerData
  | .setCellID0 v => if ro then .error .readOnly else .ok { o with cellID0 := v }
  | .setCellID1 v => if ro then .error .readOnly else .ok { o with cellID1 := v }
  | .setTime v => if ro then .error .readOnly else .ok { o with time := v }
  | .setChargeValues v => if ro then .error .readOnly else .ok { o with charge := v }
  | .setChargeValuesOwn => if ro then .error .readOnly else .ok { o with charge := [] }
  | .chargeValues v => if ro then .error .readOnly else .ok { o with charge := v }

end TrackerData

/-! ## TrackerPulseImpl -/

namespace TrackerPulse

/-- The member functions of `TrackerPulseImpl` that change it (src/cpp/src/IMPL/TrackerPulseImpl.cc, by line). -/
inductive Setter where
  /-- 25-28 -/
  | setCellID0 (v : W32)
  /-- 30-33 -/
  | setCellID1 (v : W32)
  /-- 35-38 -/
  | setTime (v : W32)
  /-- 45-48 -/
  | setCharge (v : W32)
  /-- 56-68 -/
  | setCovMatrix (v : List W32)
  /-- 70-73 -/
  | setQuality (v : W32)
  /-- 75-82 -/
  | setQualityBit (bit : Int) (val : Bool)
  /-- 84-87 -/
  | setTrackerData (v : Nat)

/-- The member functions that return its contents. -/
inductive Getter where
  /-- TrackerPulseImpl.h:39 -/
  | getCellID0
  /-- TrackerPulseImpl.h:44 -/
  | getCellID1
  /-- TrackerPulseImpl.h:48 -/
  | getTime
  /-- TrackerPulseImpl.h:55 -/
  | getCharge
  /-- TrackerPulseImpl.h:64 -/
  | getCovMatrix
  /-- TrackerPulseImpl.h:69 -/
  | getQuality
  /-- TrackerPulseImpl.h:75 -/
  | getTrackerData
  deriving DecidableEq, Repr

/-- What a member function returns: src/cpp/src/IMPL/TrackerPulseImpl.cc, the lines given with `Getter`. -/
def get (o : TrackerPulse) : Getter → Val
  | .getCellID0 => .w32 o.cellID0
  | .getCellID1 => .w32 o.cellID1
  | .getTime => .w32 o.time
  | .getCharge => .w32 o.charge
  | .getCovMatrix => .f32s o.cov
  | .getQuality => .w32 o.quality
  | .getTrackerData => .ptr o.corrData

/-- A call of a member function on an object that is read-only (`ro`) or not. -/
def change (ro : Bool) (o : TrackerPulse) : Setter → Except Err TrackerPulse
  | .setCellID0 v => if ro then .error .readOnly else .ok { o with cellID0 := v }
  | .setCellID1 v => if ro then .error .readOnly else .ok { o with cellID1 := v }
  | .setTime v => if ro then .error .readOnly else .ok { o with time := v }
  | .setCharge v => if ro then .error .readOnly else .ok { o with charge := v }
  | .setCovMatrix v => if ro then .error .readOnly else do return { o with cov := ← copyArray 3 v }
  | .setQuality v => if ro then .error .readOnly else .ok { o with quality := v }
  | .setQualityBit bit val => if ro then .error .readOnly else do return { o with quality := ← setWordBit o.quality bit val }
  | .setTrackerData v => if ro then .error .readOnly else .ok { o with corrData := v }

end TrackerPulse

/-! ## TPCHitImpl -/

namespace TPCHit

/-- The member functions of `TPCHitImpl` that change it (src/cpp/src/IMPL/TPCHitImpl.cc, by line). -/
inductive Setter where
  /-- 42-45 -/
  | setCellID (v : W32)
  /-- 47-50 -/
  | setTime (v : W32)
  /-- 52-55 -/
  | setCharge (v : W32)
  /-- 57-60 -/
  | setQuality (v : W32)
  /-- 62-71 -/
  | setRawData (v : List W32)
  /-- 73-80, no access check: the new array is not initialised: `v` is whatever is in it -/
  | initRawArray (v : List W32)

/-- The member functions that return its contents. -/
inductive Getter where
  /-- 23 -/
  | getCellID
  /-- 25 -/
  | getTime
  /-- 27 -/
  | getCharge
  /-- 29 -/
  | getQuality
  /-- 31-39 -/
  | getRawData
  deriving DecidableEq, Repr

/-- What a member function returns: src/cpp/src/IMPL/TPCHitImpl.cc, the lines given with `Getter`. -/
def get (o : TPCHit) : Getter → Val
  | .getCellID => .w32 o.cellID
  | .getTime => .w32 o.time
  | .getCharge => .w32 o.charge
  | .getQuality => .w32 o.quality
  | .getRawData => .f32s o.raw

/-- A call of a member function on an object that is read-only (`ro`) or not. -/
def change (ro : Bool) (o : TPCHit) : Setter → Except Err TPCHit
  | .setCellID v => if ro then .error .readOnly else .ok { o with cellID := v }
  | .setTime v => if ro then .error .readOnly else .ok { o with time := v }
  | .setCharge v => if ro then .error .readOnly else .ok { o with charge := v }
  | .setQuality v => if ro then .error .readOnly else .ok { o with quality := v }
  | .setRawData v => if ro then .error .readOnly else .ok { o with raw := v }
  | .initRawArray v => .ok { o with raw := v }

end TPCHit

/-! ## TrackStateImpl -/

namespace TrackState

/-- The member functions of `TrackStateImpl` that change it (src/cpp/src/IMPL/TrackStateImpl.cc, by line). -/
inductive Setter where
  /-- 100-108 -/
  | setLocation (v : W32)
  /-- 109-112 -/
  | setD0 (v : W32)
  /-- 113-116 -/
  | setPhi (v : W32)
  /-- 117-120 -/
  | setOmega (v : W32)
  /-- 121-124 -/
  | setZ0 (v : W32)
  /-- 125-128 -/
  | setTanLambda (v : W32)
  /-- 129-140 -/
  | setCovMatrix (v : List W32)
  /-- 142-147 -/
  | setReferencePoint (v : List W32)

/-- The member functions that return its contents. -/
inductive Getter where
  /-- 89 -/
  | getLocation
  /-- 90 -/
  | getD0
  /-- 91 -/
  | getPhi
  /-- 92 -/
  | getOmega
  /-- 93 -/
  | getZ0
  /-- 94 -/
  | getTanLambda
  /-- 96 -/
  | getCovMatrix
  /-- 97 -/
  | getReferencePoint
  deriving DecidableEq, Repr

/-- What a member function returns: src/cpp/src/IMPL/TrackStateImpl.cc, the lines given with `Getter`. -/
def get (o : TrackState) : Getter → Val
  | .getLocation => .w32 o.location
  | .getD0 => .w32 o.d0
  | .getPhi => .w32 o.phi
  | .getOmega => .w32 o.omega
  | .getZ0 => .w32 o.z0
  | .getTanLambda => .w32 o.tanLambda
  | .getCovMatrix => .f32s o.cov
  | .getReferencePoint => .f32s o.reference

/-- A call of a member function on an object that is read-only (`ro`) or not. -/
def change (ro : Bool) (o : TrackState) : Setter → Except Err TrackState
  | .setLocation v => if ro then .error .readOnly else .ok { o with location := v }
  | .setD0 v => if ro then .error .readOnly else .ok { o with d0 := v }
  | .setPhi v => if ro then .error .readOnly else .ok { o with phi := v }
  | .setOmega v => if ro then .error .readOnly else .ok { o with omega := v }
  | .setZ0 v => if ro then .error .readOnly else .ok { o with z0 := v }
  | .setTanLambda v => if ro then .error .readOnly else .ok { o with tanLambda := v }
  | .setCovMatrix v => if ro then .error .readOnly else do return { o with cov := ← copyArray 15 v }
  | .setReferencePoint v => if ro then .error .readOnly else do return { o with reference := ← copyArray 3 v }

end TrackState

/-- The state that `TrackImpl::getD0` and so on ask: `_trackStates[0]`, or a default one (`0`, `_dummy`), src/cpp/src/IMPL/TrackImpl.cc:89-101. -/
def Track.first (o : Track) : TrackState := o.states.head?.getD {}

/-- `setD0` and so on, TrackImpl.cc:181-316: create a state if there is none, throw unless there is exactly one, pass the call on. The state is not read-only. -/
def Track.onFirst (o : Track) (f : TrackState → Except Err TrackState) : Except Err Track := match o.states with
  | [] => do return { o with states := [← f {}] }
  | [s] => do return { o with states := [← f s] }
  | _ => .error .lcException

/-! ## TrackImpl -/

namespace Track

/-- The member functions of `TrackImpl` that change it (src/cpp/src/IMPL/TrackImpl.cc, by line). -/
inductive Setter where
  /-- 165-168 -/
  | setTypeBit (bit : Int) (val : Bool)
  /-- 171-179 -/
  | setType (v : W32)
  /-- 324-327 -/
  | setChi2 (v : W32)
  /-- 328-331 -/
  | setNdf (v : W32)
  /-- 332-335 -/
  | setdEdx (v : W32)
  /-- 336-339 -/
  | setdEdxError (v : W32)
  /-- 341-343, no access check -/
  | addHit (v : Nat)
  /-- 345-348 -/
  | addTrack (v : Nat)
  /-- 350-360 -/
  | addTrackState (v : TrackState)
  /-- 362-365 -/
  | trackStates (v : List TrackState)
  /-- 367-370 -/
  | subdetectorHitNumbers (v : List W32)
  /-- 372-375 -/
  | setRadiusOfInnermostHit (v : W32)
  /-- 181-196, no access check -/
  | setD0 (v : W32)
  /-- 197-212, no access check -/
  | setPhi (v : W32)
  /-- 213-228, no access check -/
  | setOmega (v : W32)
  /-- 229-244, no access check -/
  | setZ0 (v : W32)
  /-- 245-260, no access check -/
  | setTanLambda (v : W32)
  /-- 262-297, no access check -/
  | setCovMatrix (v : List W32)
  /-- 299-316, no access check -/
  | setReferencePoint (v : List W32)

/-- The member functions that return its contents. -/
inductive Getter where
  /-- 75 -/
  | getType
  /-- 109 -/
  | getChi2
  /-- 110 -/
  | getNdf
  /-- 111 -/
  | getdEdx
  /-- 112 -/
  | getdEdxError
  /-- 122 -/
  | getTrackerHits
  /-- 126 -/
  | getTracks
  /-- 119 -/
  | getSubdetectorHitNumbers
  /-- 115 -/
  | getRadiusOfInnermostHit
  /-- 89 -/
  | getD0
  /-- 90 -/
  | getPhi
  /-- 91 -/
  | getOmega
  /-- 92 -/
  | getZ0
  /-- 93 -/
  | getTanLambda
  /-- 94-97 -/
  | getCovMatrix
  /-- 98-101 -/
  | getReferencePoint
  deriving DecidableEq, Repr

/-- What a member function returns: src/cpp/src/IMPL/TrackImpl.cc, the lines given with `Getter`. -/
def get (o : Track) : Getter → Val
  | .getType => .w32 o.type
  | .getChi2 => .w32 o.chi2
  | .getNdf => .w32 o.ndf
  | .getdEdx => .w32 o.dEdx
  | .getdEdxError => .w32 o.dEdxError
  | .getTrackerHits => .ptrs o.hits
  | .getTracks => .ptrs o.tracks
  | .getSubdetectorHitNumbers => .f32s o.hitNumbers
  | .getRadiusOfInnermostHit => .w32 o.radius
  | .getD0 => .w32 (o.first.d0)
  | .getPhi => .w32 (o.first.phi)
  | .getOmega => .w32 (o.first.omega)
  | .getZ0 => .w32 (o.first.z0)
  | .getTanLambda => .w32 (o.first.tanLambda)
  | .getCovMatrix => .f32s (o.first.cov)
  | .getReferencePoint => .f32s (o.first.reference)

/-- A call of a member function on an object that is read-only (`ro`) or not. -/
def change (ro : Bool) (o : Track) : Setter → Except Err Track
  | .setTypeBit bit val => if ro then .error .readOnly else do return { o with type := ← setBitsetBit o.type bit val }
  | .setType v => if ro then .error .readOnly else .ok { o with type := v }
  | .setChi2 v => if ro then .error .readOnly else .ok { o with chi2 := v }
  | .setNdf v => if ro then .error .readOnly else .ok { o with ndf := v }
  | .setdEdx v => if ro then .error .readOnly else .ok { o with dEdx := v }
  | .setdEdxError v => if ro then .error .readOnly else .ok { o with dEdxError := v }
  | .addHit v => .ok { o with hits := o.hits ++ [v] }
  | .addTrack v => if ro then .error .readOnly else .ok { o with tracks := o.tracks ++ [v] }
  | .addTrackState v => if ro then .error .readOnly else if v.location ≠ 0 ∧ (o.states.find? fun s => s.location == v.location).isSome then .error .lcException else .ok { o with states := o.states ++ [v] }
  | .trackStates v => if ro then .error .readOnly else .ok { o with states := v }
  | .subdetectorHitNumbers v => if ro then .error .readOnly else .ok { o with hitNumbers := v }
  | .setRadiusOfInnermostHit v => if ro then .error .readOnly else .ok { o with radius := v }
  | .setD0 v => o.onFirst fun s => s.change false (.setD0 v)
  | .setPhi v => o.onFirst fun s => s.change false (.setPhi v)
  | .setOmega v => o.onFirst fun s => s.change false (.setOmega v)
  | .setZ0 v => o.onFirst fun s => s.change false (.setZ0 v)
  | .setTanLambda v => o.onFirst fun s => s.change false (.setTanLambda v)
  | .setCovMatrix v => o.onFirst fun s => s.change false (.setCovMatrix v)
  | .setReferencePoint v => o.onFirst fun s => s.change false (.setReferencePoint v)

end Track

/-! ## ClusterImpl -/

namespace Cluster

/-- The member functions of `ClusterImpl` that change it (src/cpp/src/IMPL/ClusterImpl.cc, by line). -/
inductive Setter where
  /-- 55-58 -/
  | setType (v : W32)
  /-- 59-62 -/
  | setEnergy (v : W32)
  /-- 63-66 -/
  | setEnergyError (v : W32)
  /-- 67-70 -/
  | setPosition (v : List W32)
  /-- 71-78 -/
  | setPositionError (v : List W32)
  /-- 79-82 -/
  | setITheta (v : W32)
  /-- 83-86 -/
  | setIPhi (v : W32)
  /-- 87-94 -/
  | setDirectionError (v : List W32)
  /-- 99-105: appends: `copy(…, back_inserter(_shape))` -/
  | setShape (v : List W32)
  /-- 120-125 -/
  | addParticleID (v : Pid)
  /-- 127-130 -/
  | addCluster (v : Nat)
  /-- 133-136, no access check -/
  | addHit (hit : Nat) (contribution : W32)
  /-- 138-141 -/
  | setTypeBit (bit : Int) (val : Bool)
  /-- 143-146 -/
  | subdetectorEnergies (v : List W32)

/-- The member functions that return its contents. -/
inductive Getter where
  /-- 23 -/
  | getType
  /-- 30 -/
  | getEnergy
  /-- 31 -/
  | getEnergyError
  /-- 32 -/
  | getPosition
  /-- 33 -/
  | getPositionError
  /-- 34 -/
  | getITheta
  /-- 35 -/
  | getIPhi
  /-- 36 -/
  | getDirectionError
  /-- 37 -/
  | getShape
  /-- 41 -/
  | getClusters
  /-- 50 -/
  | getSubdetectorEnergies
  /-- 39 -/
  | getParticleIDs
  /-- 44 -/
  | getCalorimeterHits
  /-- 47 -/
  | getHitContributions
  deriving DecidableEq, Repr

/-- What a member function returns: src/cpp/src/IMPL/ClusterImpl.cc, the lines given with `Getter`. -/
def get (o : Cluster) : Getter → Val
  | .getType => .w32 o.type
  | .getEnergy => .w32 o.energy
  | .getEnergyError => .w32 o.energyError
  | .getPosition => .f32s o.position
  | .getPositionError => .f32s o.posError
  | .getITheta => .w32 o.theta
  | .getIPhi => .w32 o.phi
  | .getDirectionError => .f32s o.dirError
  | .getShape => .f32s o.shape
  | .getClusters => .ptrs o.clusters
  | .getSubdetectorEnergies => .f32s o.energies
  | .getParticleIDs => .pids o.pids
  | .getCalorimeterHits => .ptrs o.hits
  | .getHitContributions => .f32s o.weights

/-- A call of a member function on an object that is read-only (`ro`) or not. -/
def change (std : Std Lcio.Pid) (ro : Bool) (o : Cluster) : Setter → Except Err Cluster
  | .setType v => if ro then .error .readOnly else .ok { o with type := v }
  | .setEnergy v => if ro then .error .readOnly else .ok { o with energy := v }
  | .setEnergyError v => if ro then .error .readOnly else .ok { o with energyError := v }
  | .setPosition v => if ro then .error .readOnly else do return { o with position := ← copyArray 3 v }
  | .setPositionError v => if ro then .error .readOnly else do return { o with posError := ← copyArray 6 v }
  | .setITheta v => if ro then .error .readOnly else .ok { o with theta := v }
  | .setIPhi v => if ro then .error .readOnly else .ok { o with phi := v }
  | .setDirectionError v => if ro then .error .readOnly else do return { o with dirError := ← copyArray 3 v }
  | .setShape v => if ro then .error .readOnly else .ok { o with shape := o.shape ++ v }
  | .addParticleID v => if ro then .error .readOnly else .ok { o with pids := std.sort (o.pids ++ [v]) }
  | .addCluster v => if ro then .error .readOnly else .ok { o with clusters := o.clusters ++ [v] }
  | .addHit hit contribution => .ok { o with hits := o.hits ++ [hit], weights := o.weights ++ [contribution] }
  | .setTypeBit bit val => if ro then .error .readOnly else do return { o with type := ← setBitsetBit o.type bit val }
  | .subdetectorEnergies v => if ro then .error .readOnly else .ok { o with energies := v }

end Cluster

/-! ## ParticleIDImpl -/

namespace Pid

/-- The member functions of `ParticleIDImpl` that change it (src/cpp/src/IMPL/ParticleIDImpl.cc, by line). -/
inductive Setter where
  /-- 35-38 -/
  | setType (v : W32)
  /-- 39-42 -/
  | setPDG (v : W32)
  /-- 44-47 -/
  | setLikelihood (v : W32)
  /-- 49-52 -/
  | setAlgorithmType (v : W32)
  /-- 54-57 -/
  | addParameter (v : W32)
  /-- 31-33, no access check -/
  | parameters (v : List W32)

/-- The member functions that return its contents. -/
inductive Getter where
  /-- 15 -/
  | getType
  /-- 18 -/
  | getPDG
  /-- 21 -/
  | getLikelihood
  /-- 24 -/
  | getAlgorithmType
  /-- 27 -/
  | getParameters
  deriving DecidableEq, Repr

/-- What a member function returns: src/cpp/src/IMPL/ParticleIDImpl.cc, the lines given with `Getter`. -/
def get (o : Pid) : Getter → Val
  | .getType => .w32 o.type
  | .getPDG => .w32 o.pdg
  | .getLikelihood => .w32 o.likelihood
  | .getAlgorithmType => .w32 o.algorithmType
  | .getParameters => .f32s o.params

/-- A call of a member function on an object that is read-only (`ro`) or not. -/
def change (ro : Bool) (o : Pid) : Setter → Except Err Pid
  | .setType v => if ro then .error .readOnly else .ok { o with type := v }
  | .setPDG v => if ro then .error .readOnly else .ok { o with pdg := v }
  | .setLikelihood v => if ro then .error .readOnly else .ok { o with likelihood := v }
  | .setAlgorithmType v => if ro then .error .readOnly else .ok { o with algorithmType := v }
  | .addParameter v => if ro then .error .readOnly else .ok { o with params := o.params ++ [v] }
  | .parameters v => .ok { o with params := v }

end Pid

/-! ## ReconstructedParticleImpl -/

namespace RecoParticle

/-- The member functions of `ReconstructedParticleImpl` that change it (src/cpp/src/IMPL/ReconstructedParticleImpl.cc, by line). -/
inductive Setter where
  /-- 79-82 -/
  | setStartVertex (v : Nat)
  /-- 91-94 -/
  | setType (v : W32)
  /-- 106-111 -/
  | setMomentumFloat (v : List W32)
  /-- 113-118 -/
  | setMomentum (v : List W64)
  /-- 120-123 -/
  | setEnergy (v : W32)
  /-- 125-133 -/
  | setCovMatrix (v : List W32)
  /-- 135-138 -/
  | setMass (v : W32)
  /-- 140-143 -/
  | setCharge (v : W32)
  /-- 145-150 -/
  | setReferencePoint (v : List W32)
  /-- 152-155 -/
  | setParticleIDUsed (v : Nat)
  /-- 157-160 -/
  | setGoodnessOfPID (v : W32)
  /-- 162-168, no access check -/
  | addParticleID (v : Pid)
  /-- 170-174 -/
  | addParticle (v : Nat)
  /-- 176-180 -/
  | addCluster (v : Nat)
  /-- 182-186 -/
  | addTrack (v : Nat)

/-- The member functions that return its contents. -/
inductive Getter where
  /-- 68 -/
  | getStartVertex
  /-- 38 -/
  | getType
  /-- 41 -/
  | getMomentum
  /-- 42 -/
  | getEnergy
  /-- 43 -/
  | getCovMatrix
  /-- 44 -/
  | getMass
  /-- 45 -/
  | getCharge
  /-- 46 -/
  | getReferencePoint
  /-- 49 -/
  | getParticleIDUsed
  /-- 51 -/
  | getGoodnessOfPID
  /-- 56 -/
  | getParticles
  /-- 59 -/
  | getClusters
  /-- 62 -/
  | getTracks
  /-- 54 -/
  | getParticleIDs
  deriving DecidableEq, Repr

/-- What a member function returns: src/cpp/src/IMPL/ReconstructedParticleImpl.cc, the lines given with `Getter`. -/
def get (o : RecoParticle) : Getter → Val
  | .getStartVertex => .ptr o.startVertex
  | .getType => .w32 o.type
  | .getMomentum => .f64s o.momentum
  | .getEnergy => .w64 o.energy
  | .getCovMatrix => .f32s o.cov
  | .getMass => .w64 o.mass
  | .getCharge => .w32 o.charge
  | .getReferencePoint => .f32s o.reference
  | .getParticleIDUsed => .ptr o.pidUsed
  | .getGoodnessOfPID => .w32 o.goodness
  | .getParticles => .ptrs o.particles
  | .getClusters => .ptrs o.clusters
  | .getTracks => .ptrs o.tracks
  | .getParticleIDs => .pids o.pids

/-- A call of a member function on an object that is read-only (`ro`) or not. -/
def change (std : Std Lcio.Pid) (ro : Bool) (o : RecoParticle) : Setter → Except Err RecoParticle
  | .setStartVertex v => if ro then .error .readOnly else .ok { o with startVertex := v }
  | .setType v => if ro then .error .readOnly else .ok { o with type := v }
  | .setMomentumFloat v => if ro then .error .readOnly else do return { o with momentum := (← copyArray 3 v).map std.widen }
  | .setMomentum v => if ro then .error .readOnly else do return { o with momentum := ← copyArray 3 v }
  | .setEnergy v => if ro then .error .readOnly else .ok { o with energy := std.widen v }
  | .setCovMatrix v => if ro then .error .readOnly else do return { o with cov := ← copyArray 10 v }
  | .setMass v => if ro then .error .readOnly else .ok { o with mass := std.widen v }
  | .setCharge v => if ro then .error .readOnly else .ok { o with charge := v }
  | .setReferencePoint v => if ro then .error .readOnly else do return { o with reference := ← copyArray 3 v }
  | .setParticleIDUsed v => if ro then .error .readOnly else .ok { o with pidUsed := v }
  | .setGoodnessOfPID v => if ro then .error .readOnly else .ok { o with goodness := v }
  | .addParticleID v => .ok { o with pids := std.sort (o.pids ++ [v]) }
  | .addParticle v => if ro then .error .readOnly else .ok { o with particles := o.particles ++ [v] }
  | .addCluster v => if ro then .error .readOnly else .ok { o with clusters := o.clusters ++ [v] }
  | .addTrack v => if ro then .error .readOnly else .ok { o with tracks := o.tracks ++ [v] }

end RecoParticle

/-! ## VertexImpl -/

namespace Vertex

/-- The member functions of `VertexImpl` that change it (src/cpp/src/IMPL/VertexImpl.cc, by line). -/
inductive Setter where
  /-- 32-35 -/
  | setPrimary (v : Bool)
  /-- 42-45 -/
  | setAlgorithmType (v : Str)
  /-- 47-50 -/
  | setChi2 (v : W32)
  /-- 52-55 -/
  | setProbability (v : W32)
  /-- 57-66 -/
  | setPosition (v : List W32)
  /-- 68-76 -/
  | setCovMatrix (v : List W32)
  /-- 78-81 -/
  | setAssociatedParticle (v : Nat)
  /-- 83-86 -/
  | addParameter (v : W32)

/-- The member functions that return its contents. -/
inductive Getter where
  /-- 20 -/
  | isPrimary
  /-- 22 -/
  | getAlgorithmType
  /-- 23 -/
  | getChi2
  /-- 24 -/
  | getProbability
  /-- 25 -/
  | getPosition
  /-- 26 -/
  | getCovMatrix
  /-- 28 -/
  | getAssociatedParticle
  /-- 27 -/
  | getParameters
  deriving DecidableEq, Repr

/-- What a member function returns: src/cpp/src/IMPL/VertexImpl.cc, the lines given with `Getter`. -/
def get (o : Vertex) : Getter → Val
  | .isPrimary => .flag o.isPrimary
  | .getAlgorithmType => .text o.algorithmType
  | .getChi2 => .w32 o.chi2
  | .getProbability => .w32 o.probability
  | .getPosition => .f32s o.pos
  | .getCovMatrix => .f32s o.cov
  | .getAssociatedParticle => .ptr o.particle
  | .getParameters => .f32s o.params

/-- A call of a member function on an object that is read-only (`ro`) or not. -/
def change (ro : Bool) (o : Vertex) : Setter → Except Err Vertex
  | .setPrimary v => if ro then .error .readOnly else .ok { o with primary := if v then 1 else 0 }
  | .setAlgorithmType v => if ro then .error .readOnly else .ok { o with algorithmType := v }
  | .setChi2 v => if ro then .error .readOnly else .ok { o with chi2 := v }
  | .setProbability v => if ro then .error .readOnly else .ok { o with probability := v }
  | .setPosition v => if ro then .error .readOnly else do return { o with pos := ← copyArray 3 v }
  | .setCovMatrix v => if ro then .error .readOnly else do return { o with cov := ← copyArray 6 v }
  | .setAssociatedParticle v => if ro then .error .readOnly else .ok { o with particle := v }
  | .addParameter v => if ro then .error .readOnly else .ok { o with params := o.params ++ [v] }

end Vertex

/-! ## LCRelationImpl -/

namespace Relation

/-- The member functions of `LCRelationImpl` that change it (src/cpp/include/IMPL/LCRelationImpl.h, by line). -/
inductive Setter where
  /-- LCRelationImpl.h:43, no access check -/
  | setFrom (v : Nat)
  /-- LCRelationImpl.h:44, no access check -/
  | setTo (v : Nat)
  /-- LCRelationImpl.h:45, no access check -/
  | setWeight (v : W32)

/-- The member functions that return its contents. -/
inductive Getter where
  /-- LCRelationImpl.h:39 -/
  | getFrom
  /-- LCRelationImpl.h:40 -/
  | getTo
  /-- LCRelationImpl.h:41 -/
  | getWeight
  deriving DecidableEq, Repr

/-- What a member function returns: src/cpp/include/IMPL/LCRelationImpl.h, the lines given with `Getter`. -/
def get (o : Relation) : Getter → Val
  | .getFrom => .ptr o.from_
  | .getTo => .ptr o.to
  | .getWeight => .w32 o.weight

/-- A call of a member function on an object that is read-only (`ro`) or not. -/
def change (_ro : Bool) (o : Relation) : Setter → Except Err Relation
  | .setFrom v => .ok { o with from_ := v }
  | .setTo v => .ok { o with to := v }
  | .setWeight v => .ok { o with weight := v }

end Relation

/-! ## LCRunHeaderImpl -/

namespace RunHeader

/-- The member functions of `LCRunHeaderImpl` that change it (src/cpp/src/IMPL/LCRunHeaderImpl.cc, by line). -/
inductive Setter where
  /-- 19-22 -/
  | setRunNumber (v : W32)
  /-- 23-26 -/
  | setDetectorName (v : Str)
  /-- 27-30 -/
  | setDescription (v : Str)
  /-- 31-35, no access check -/
  | addActiveSubdetector (v : Str)
  /-- LCRunHeaderImpl.h:53, no access check -/
  | parameters (v : Params)

/-- The member functions that return its contents. -/
inductive Getter where
  /-- 14 -/
  | getRunNumber
  /-- 15 -/
  | getDetectorName
  /-- 16 -/
  | getDescription
  /-- 17 -/
  | getActiveSubdetectors
  deriving DecidableEq, Repr

/-- What a member function returns: src/cpp/src/IMPL/LCRunHeaderImpl.cc, the lines given with `Getter`. -/
def get (o : RunHeader) : Getter → Val
  | .getRunNumber => .w32 o.run
  | .getDetectorName => .text o.det
  | .getDescription => .text o.descr
  | .getActiveSubdetectors => .texts o.subdets

/-- A call of a member function on an object that is read-only (`ro`) or not. -/
def change (ro : Bool) (o : RunHeader) : Setter → Except Err RunHeader
  | .setRunNumber v => if ro then .error .readOnly else .ok { o with run := v }
  | .setDetectorName v => if ro then .error .readOnly else .ok { o with det := v }
  | .setDescription v => if ro then .error .readOnly else .ok { o with descr := v }
  | .addActiveSubdetector v => .ok { o with subdets := o.subdets ++ [v] }
  | .parameters v => .ok { o with params := v }

end RunHeader

/-! ## LCEventImpl -/

namespace EventHeader

/-- The member functions of `LCEventImpl` that change it (src/cpp/src/IMPL/LCEventImpl.cc, by line). -/
inductive Setter where
  /-- 144-147 -/
  | setRunNumber (v : W32)
  /-- 150-153 -/
  | setEventNumber (v : W32)
  /-- 156-159 -/
  | setDetectorName (v : Str)
  /-- 162-165 -/
  | setTimeStamp (v : W64)
  /-- 168-171 -/
  | setWeight (v : W64)
  /-- LCEventImpl.h:135, no access check -/
  | parameters (v : Params)

/-- The member functions that return its contents. -/
inductive Getter where
  /-- 35 -/
  | getRunNumber
  /-- 40 -/
  | getEventNumber
  /-- 45 -/
  | getDetectorName
  /-- 50 -/
  | getTimeStamp
  deriving DecidableEq, Repr

/-- What a member function returns: src/cpp/src/IMPL/LCEventImpl.cc, the lines given with `Getter`. -/
def get (o : EventHeader) : Getter → Val
  | .getRunNumber => .w32 o.run
  | .getEventNumber => .w32 o.evt
  | .getDetectorName => .text o.det
  | .getTimeStamp => .w64 o.time

/-- A call of a member function on an object that is read-only (`ro`) or not. -/
def change (std : Std Lcio.Pid) (ro : Bool) (o : EventHeader) : Setter → Except Err EventHeader
  | .setRunNumber v => if ro then .error .readOnly else .ok { o with run := v }
  | .setEventNumber v => if ro then .error .readOnly else .ok { o with evt := v }
  | .setDetectorName v => if ro then .error .readOnly else .ok { o with det := v }
  | .setTimeStamp v => if ro then .error .readOnly else .ok { o with time := v }
  | .setWeight v => if ro then .error .readOnly else (o.params.setFloat weightKey (std.narrow v)).map fun p => { o with params := p }
  | .parameters v => .ok { o with params := v }

end EventHeader

/-! ## LCCollectionVec -/

namespace ColObj

/-- The member functions of `LCCollectionVec` that change it (src/cpp/src/IMPL/LCCollectionVec.cc, by line). -/
inductive Setter where
  /-- 68-71, no access check -/
  | setTransient (val : Bool)
  /-- 78-81, no access check -/
  | setDefault (val : Bool)
  /-- 87-90, no access check -/
  | setSubset (val : Bool)
  /-- 98-100, no access check -/
  | setFlag (v : W32)
  /-- 103-109 -/
  | addElement (v : Nat)
  /-- 111-118 -/
  | removeElementAt (i : Int)
  /-- LCCollectionVec.h:25, no access check: an `LCCollectionVec` is a `std::vector`, whose members can be called directly -/
  | vector (v : List Nat)
  /-- LCCollectionVec.h:143, no access check -/
  | parameters (v : Params)

/-- The member functions that return its contents. -/
inductive Getter where
  /-- 93-95 -/
  | getFlag
  /-- 43-62 -/
  | getElements
  /-- 54 -/
  | getTypeName
  deriving DecidableEq, Repr

/-- What a member function returns: src/cpp/src/IMPL/LCCollectionVec.cc, the lines given with `Getter`. -/
def get (o : ColObj) : Getter → Val
  | .getFlag => .w32 o.flag
  | .getElements => .ptrs o.elems
  | .getTypeName => .text o.type

/-- A call of a member function on an object that is read-only (`ro`) or not. -/
def change (ro : Bool) (o : ColObj) : Setter → Except Err ColObj
  | .setTransient val => do return { o with flag := ← setWordBit o.flag 16 val }
  | .setDefault val => do return { o with flag := ← setWordBit o.flag 17 val }
  | .setSubset val => do return { o with flag := ← setWordBit o.flag 18 val }
  | .setFlag v => .ok { o with flag := v }
  | .addElement v => if ro then .error .readOnly else .ok { o with elems := o.elems ++ [v] }
  | .removeElementAt i => if ro then .error .readOnly else if 0 ≤ i ∧ i.toNat < o.elems.length then .ok { o with elems := o.elems.eraseIdx i.toNat } else .error .ub
  | .vector v => .ok { o with elems := v }
  | .parameters v => .ok { o with params := v }

end ColObj

/-! ## Getters that look at more than one data member -/

/-- `MCParticleImpl::getEndpoint`, src/cpp/src/IMPL/MCParticleImpl.cc:139-156. `h` are the particles by address. -/
def MCParticle.getEndpoint (h : Nat → MCParticle) (o : MCParticle) : List W64 :=
  if !o.simStatus.getLsbD 31 then
    match o.daughters.find? fun d => !(h d).simStatus.getLsbD 28 with
    | some d => (h d).vertex
    | none => o.endpoint
  else o.endpoint

/-- `LCEventImpl::getWeight`, src/cpp/src/IMPL/LCEventImpl.cc:54-57: `w == 0` is true for both zeros. 0x3ff0000000000000 is 1. -/
def EventHeader.getWeight (std : Std Pid) (o : EventHeader) : Except Err W64 := do
  let w := std.widen (← getVal 0 o.params.floats weightKey)
  return if w = 0 ∨ w = 0x8000000000000000 then 0x3ff0000000000000 else w

/-! ## LCGenericObjectImpl -/

namespace Generic

/-- `vector::resize`. -/
def resize {α : Type} (zero : α) (l : List α) (n : Nat) : List α := l.take n ++ List.replicate (n - l.length) zero

/-- The three setters of `LCGenericObjectImpl`, src/cpp/src/IMPL/LCGenericObjectImpl.cc:54-70. `index + 1` is an `unsigned`; an access outside the vector is
undefined behaviour. -/
def setAt {α : Type} (zero : α) (fixed : Bool) (l : List α) (index : W32) (value : α) : Except Err (List α) :=
  let l := if l.length ≤ index.toNat ∧ !fixed then resize zero l (index + 1).toNat else l
  if index.toNat < l.length then .ok (l.set index.toNat value) else .error .ub

/-- The member functions of `LCGenericObjectImpl` that change it (src/cpp/src/IMPL/LCGenericObjectImpl.cc, by line). -/
inductive Setter where
  /-- 54-58, no access check -/
  | setIntVal (index : W32) (value : W32)
  /-- 60-64, no access check -/
  | setFloatVal (index : W32) (value : W32)
  /-- 66-70, no access check -/
  | setDoubleVal (index : W32) (value : W64)

/-- The member functions that return its contents. -/
inductive Getter where
  /-- 27-29 -/
  | getNInt
  /-- 30-33 -/
  | getNFloat
  /-- 34-37 -/
  | getNDouble
  /-- 38-40 -/
  | getIntVal (index : Nat)
  /-- 42-44 -/
  | getFloatVal (index : Nat)
  /-- 46-48 -/
  | getDoubleVal (index : Nat)
  /-- 50-52 -/
  | isFixedSize
  deriving DecidableEq, Repr

/-- What a member function returns: src/cpp/src/IMPL/LCGenericObjectImpl.cc, the lines given with `Getter`. An access outside a vector is undefined behaviour. -/
def get (o : Generic) : Getter → Val
  | .getNInt => .w32 (BitVec.ofNat 32 o.ints.length)
  | .getNFloat => .w32 (BitVec.ofNat 32 o.floats.length)
  | .getNDouble => .w32 (BitVec.ofNat 32 o.doubles.length)
  | .getIntVal i => match o.ints[i]? with | some v => .w32 v | none => .undef
  | .getFloatVal i => match o.floats[i]? with | some v => .w32 v | none => .undef
  | .getDoubleVal i => match o.doubles[i]? with | some v => .w64 v | none => .undef
  | .isFixedSize => .flag o.fixed

/-- A call of a member function; the access mode does not matter. -/
def change (_ro : Bool) (o : Generic) : Setter → Except Err Generic
  | .setIntVal i v => do return { o with ints := ← setAt 0 o.fixed o.ints i v }
  | .setFloatVal i v => do return { o with floats := ← setAt 0 o.fixed o.floats i v }
  | .setDoubleVal i v => do return { o with doubles := ← setAt 0 o.fixed o.doubles i v }

end Generic

end Lcio
