import Verif.Lcio.Typed
/-
The persistent objects and their serialisation.

Objects are records of their data members; pointers are addresses (0 is null); `float` and `double` are bit patterns; a member that is
a C array or a covariance matrix of fixed size is a list, of the length that `ok` says. `mapPtr f` is the object with `f` applied to
all its pointers. `write` gives the device calls of the `write` method of the handler for an object at address `addr`, `read` is the
`read` method of the handler for an object `self` just made by `create` with its default constructor.
-/
namespace Lcio
open Sio

/-- Conversions between `double` and `float`, and `std::sort`. -/
structure Std (Pid : Type) where
  /-- `static_cast<float>` of a `double` -/
  narrow : W64 → W32
  /-- conversion of a `float` to `double` -/
  widen : W32 → W64
  /-- `sort(v.begin(), v.end(), PIDSort())` -/
  sort : List Pid → List Pid

/-- `IMPL::ParticleIDImpl`, src/cpp/include/IMPL/ParticleIDImpl.h:88-93, with its address. -/
structure Pid where
  addr : Nat := 0
  likelihood : W32 := 0
  type : W32 := 0
  pdg : W32 := 0
  algorithmType : W32 := 0
  params : List W32 := []
  deriving DecidableEq, Repr

/-- The state of a handler while it works on a collection: `_flag` (src/cpp/include/SIO/SIOObjectHandler.h:52), `_imr`/`_parameters`/`_set`
of the vertex handler, `_isFixedSize`, `_nInt`, `_nFloat`, `_nDouble` of the generic object handler. -/
structure Ctx where
  std : Std Pid
  flag : W32 := 0
  algs : List Str := []
  fixed : Bool := false
  nInt : W32 := 0
  nFloat : W32 := 0
  nDouble : W32 := 0

/-- `LCFlagImpl(_flag).bitSet(i)`, src/cpp/src/IMPL/LCFlagImpl.cc:19-21. -/
def Ctx.bit (c : Ctx) (i : Nat) : Bool := c.flag.getLsbD i

/-- Three zeros. -/
def zero3 {n : Nat} : List (BitVec n) := [0, 0, 0]
/-- Two zeros. -/
def zero2 {n : Nat} : List (BitVec n) := [0, 0]

/-! ## MCParticle -/

/-- `IMPL::MCParticleImpl`, src/cpp/include/IMPL/MCParticleImpl.h (data members), defaults from src/cpp/src/IMPL/MCParticleImpl.cc. -/
structure MCParticle where
  pdg : W32 := 0
  genStatus : W32 := 0
  simStatus : W32 := 0
  vertex : List W64 := zero3
  endpoint : List W64 := zero3
  pEndpoint : List W64 := zero3
  p : List W64 := zero3
  mass : W64 := 0
  charge : W32 := 0
  time : W32 := 0
  parents : List Nat := []
  daughters : List Nat := []
  spin : List W32 := zero3
  colorFlow : List W32 := zero2
  deriving DecidableEq, Repr

/-- All pointers of the object. -/
def MCParticle.mapPtr (f : Nat → Nat) (o : MCParticle) : MCParticle := { o with parents := o.parents.map f, daughters := o.daughters.map f }

/-- `SIOParticleHandler::write`, src/cpp/src/SIO/SIOParticleHandler.cc:60-90. -/
def MCParticle.write (c : Ctx) (addr : Nat) (o : MCParticle) : List Item :=
  wTag addr ++ wFor wPtr o.parents ++ w32 o.pdg ++ w32 o.genStatus ++ w32 o.simStatus ++ w64s o.vertex ++ w32 o.time ++
  (o.p.map c.std.narrow).flatMap w32 ++ w32 (c.std.narrow o.mass) ++ w32 o.charge ++
  wIf (o.simStatus.getLsbD 31) (w64s o.endpoint) ++ wIf (o.simStatus.getLsbD 31) ((o.pEndpoint.map c.std.narrow).flatMap w32) ++
  o.spin.flatMap w32 ++ o.colorFlow.flatMap w32

/-- `SIOParticleHandler::read`, SIOParticleHandler.cc:19-56. -/
def MCParticle.read (c : Ctx) (vers : W32) (self : Nat) : RProg MCParticle := do
  rTag self
  let parents ← rSized rPtr
  let pdg ← r32
  let genStatus ← r32
  let simStatus ← r32
  let vertex ← r64s 3
  let time ← rIf (newer vers 1 2) r32 0
  let p ← r32s 3
  let mass ← r32
  let charge ← r32
  let endpoint ← rIf (simStatus.getLsbD 31) (r64s 3) zero3
  let pEndpoint ← rIf (simStatus.getLsbD 31 && newer vers 2 6) (r32s 3) []
  let spin ← rIf (newer vers 1 51) (r32s 3) zero3
  let colorFlow ← rIf (newer vers 1 51) (r32s 2) zero2
  return { pdg, genStatus, simStatus, vertex, endpoint, charge, time, parents, spin, colorFlow, p := p.map c.std.widen, mass := c.std.widen mass,
           pEndpoint := if simStatus.getLsbD 31 && newer vers 2 6 then pEndpoint.map c.std.widen else zero3 }

/-! ## Calorimeter hits -/

/-- `IMPL::MCParticleCont`, src/cpp/include/IMPL/SimCalorimeterHitImpl.h. -/
structure SimCont where
  particle : Nat := 0
  energy : W32 := 0
  time : W32 := 0
  length : W32 := 0
  pdg : W32 := 0
  stepPosition : List W32 := zero3
  deriving DecidableEq, Repr

/-- `IMPL::SimCalorimeterHitImpl`, SimCalorimeterHitImpl.h. -/
structure SimCalHit where
  cellID0 : W32 := 0
  cellID1 : W32 := 0
  energy : W32 := 0
  position : List W32 := zero3
  conts : List SimCont := []
  deriving DecidableEq, Repr

/-- All pointers of the object. -/
def SimCont.mapPtr (f : Nat → Nat) (o : SimCont) : SimCont := { o with particle := f o.particle }
/-- All pointers of the object. -/
def SimCalHit.mapPtr (f : Nat → Nat) (o : SimCalHit) : SimCalHit := { o with conts := o.conts.map (·.mapPtr f) }

/-- The body of the loop of `SIOSimCalHitHandler::write`, src/cpp/src/SIO/SIOSimCalHitHandler.cc:81-90. `CHBIT_STEP` is 28. -/
def SimCont.write (c : Ctx) (o : SimCont) : List Item :=
  wPtr o.particle ++ w32 o.energy ++ w32 o.time ++ wIf (c.bit 28) (w32 o.length) ++ wIf (c.bit 28) (w32 o.pdg) ++ wIf (c.bit 28) (w32s o.stepPosition)

/-- `SIOSimCalHitHandler::write`, SIOSimCalHitHandler.cc:66-94. `CHBIT_ID1` is 29, `CHBIT_LONG` is 31. -/
def SimCalHit.write (c : Ctx) (addr : Nat) (o : SimCalHit) : List Item :=
  w32 o.cellID0 ++ wIf (c.bit 29) (w32 o.cellID1) ++ w32 o.energy ++ wIf (c.bit 31) (w32s o.position) ++ wFor (SimCont.write c) o.conts ++ wTag addr

/-- The body of the loop of `SIOSimCalHitHandler::read`, SIOSimCalHitHandler.cc:41-56. -/
def SimCont.read (c : Ctx) (vers : W32) : RProg SimCont := do
  let particle ← rPtr
  let energy ← r32
  let time ← r32
  let length ← rIf (c.bit 28 && newer vers 2 10) r32 0
  let pdg ← rIf (c.bit 28) r32 0
  let stepPosition ← rIf (c.bit 28 && newer vers 1 51) (rRepeat 3 r32) zero3
  return { particle, energy, time, length, pdg, stepPosition }

/-- `SIOSimCalHitHandler::read`, SIOSimCalHitHandler.cc:24-62. -/
def SimCalHit.read (c : Ctx) (vers : W32) (self : Nat) : RProg SimCalHit := do
  let cellID0 ← r32
  let cellID1 ← rIf (c.bit 29 || isV08 vers) r32 0
  let energy ← r32
  let position ← rIf (c.bit 31) (r32s 3) zero3
  let conts ← rSized (SimCont.read c vers)
  rIf (newer vers 1 0) (rTag self) ()
  return { cellID0, cellID1, energy, position, conts }

/-- `IMPL::CalorimeterHitImpl`, src/cpp/include/IMPL/CalorimeterHitImpl.h. -/
structure CalHit where
  cellID0 : W32 := 0
  cellID1 : W32 := 0
  energy : W32 := 0
  energyError : W32 := 0
  time : W32 := 0
  position : List W32 := zero3
  type : W32 := 0
  rawHit : Nat := 0
  deriving DecidableEq, Repr

/-- All pointers of the object. -/
def CalHit.mapPtr (f : Nat → Nat) (o : CalHit) : CalHit := { o with rawHit := f o.rawHit }

/-- `SIOCalHitHandler::write`, src/cpp/src/SIO/SIOCalHitHandler.cc:59-82. `RCHBIT_ID1` is 29, `RCHBIT_ENERGY_ERROR` 26, `RCHBIT_TIME` 27,
`RCHBIT_LONG` 31, `RCHBIT_NO_PTR` 28. -/
def CalHit.write (c : Ctx) (addr : Nat) (o : CalHit) : List Item :=
  w32 o.cellID0 ++ wIf (c.bit 29) (w32 o.cellID1) ++ w32 o.energy ++ wIf (c.bit 26) (w32 o.energyError) ++ wIf (c.bit 27) (w32 o.time) ++
  wIf (c.bit 31) (w32s o.position) ++ w32 o.type ++ wPtr o.rawHit ++ wIf (!c.bit 28) (wTag addr)

/-- `SIOCalHitHandler::read`, SIOCalHitHandler.cc:22-55. -/
def CalHit.read (c : Ctx) (vers : W32) (self : Nat) : RProg CalHit := do
  let cellID0 ← r32
  let cellID1 ← rIf (c.bit 29 || isV08 vers) r32 0
  let energy ← r32
  let energyError ← rIf (newer vers 1 9 && c.bit 26) r32 0
  let time ← rIf (newer vers 1 2 && c.bit 27) r32 0
  let position ← rIf (c.bit 31) (r32s 3) zero3
  let type ← rIf (newer vers 1 2) r32 0
  let rawHit ← rIf (newer vers 1 2) rPtr 0
  rIf (if newer vers 1 2 then !c.bit 28 else c.bit 28) (rTag self) ()
  return { cellID0, cellID1, energy, energyError, time, position, type, rawHit }

/-- `IMPL::RawCalorimeterHitImpl`, src/cpp/include/IMPL/RawCalorimeterHitImpl.h. -/
structure RawCalHit where
  cellID0 : W32 := 0
  cellID1 : W32 := 0
  amplitude : W32 := 0
  timeStamp : W32 := 0
  deriving DecidableEq, Repr

/-- `SIORawCalHitHandler::write`, src/cpp/src/SIO/SIORawCalHitHandler.cc:40-54. -/
def RawCalHit.write (c : Ctx) (addr : Nat) (o : RawCalHit) : List Item :=
  w32 o.cellID0 ++ wIf (c.bit 29) (w32 o.cellID1) ++ w32 o.amplitude ++ wIf (c.bit 27) (w32 o.timeStamp) ++ wIf (!c.bit 28) (wTag addr)

/-- `SIORawCalHitHandler::read`, SIORawCalHitHandler.cc:22-36. -/
def RawCalHit.read (c : Ctx) (vers : W32) (self : Nat) : RProg RawCalHit := do
  let cellID0 ← r32
  let cellID1 ← rIf (c.bit 29 || isV08 vers) r32 0
  let amplitude ← r32
  let timeStamp ← rIf (c.bit 27) r32 0
  rIf (!c.bit 28) (rTag self) ()
  return { cellID0, cellID1, amplitude, timeStamp }

/-! ## Tracker hits -/

/-- `IMPL::SimTrackerHitImpl`, src/cpp/include/IMPL/SimTrackerHitImpl.h. -/
structure SimTrackerHit where
  cellID0 : W32 := 0
  cellID1 : W32 := 0
  pos : List W64 := zero3
  eDep : W32 := 0
  time : W32 := 0
  particle : Nat := 0
  p : List W32 := zero3
  pathLength : W32 := 0
  quality : W32 := 0
  deriving DecidableEq, Repr

/-- All pointers of the object. -/
def SimTrackerHit.mapPtr (f : Nat → Nat) (o : SimTrackerHit) : SimTrackerHit := { o with particle := f o.particle }

/-- `SIOSimTrackHitHandler::write`, src/cpp/src/SIO/SIOSimTrackHitHandler.cc:54-73. `THBIT_ID1` is 29, `THBIT_MOMENTUM` 30. -/
def SimTrackerHit.write (c : Ctx) (addr : Nat) (o : SimTrackerHit) : List Item :=
  w32 o.cellID0 ++ wIf (c.bit 29) (w32 o.cellID1) ++ w64s o.pos ++ w32 o.eDep ++ w32 o.time ++ wPtr o.particle ++
  wIf (c.bit 30) (w32s o.p) ++ wIf (c.bit 30) (w32 o.pathLength) ++ w32 o.quality ++ wTag addr

/-- `SIOSimTrackHitHandler::read`, SIOSimTrackHitHandler.cc:23-50. -/
def SimTrackerHit.read (c : Ctx) (vers : W32) (self : Nat) : RProg SimTrackerHit := do
  let cellID0 ← r32
  let cellID1 ← rIf (newer vers 1 51 && c.bit 29) r32 0
  let pos ← r64s 3
  let eDep ← r32
  let time ← r32
  let particle ← rPtr
  let p ← rIf (c.bit 30) (r32s 3) zero3
  let pathLength ← rIf (c.bit 30 && newer vers 1 6) r32 0
  let quality ← rIf (newer vers 2 7) r32 0
  rIf (newer vers 1 0) (rTag self) ()
  return { cellID0, cellID1, pos, eDep, time, particle, p, pathLength, quality }

/-- `IMPL::TrackerHitImpl`, src/cpp/include/IMPL/TrackerHitImpl.h. -/
structure TrackerHit where
  cellID0 : W32 := 0
  cellID1 : W32 := 0
  type : W32 := 0
  pos : List W64 := zero3
  cov : List W32 := List.replicate 6 0
  eDep : W32 := 0
  eDepError : W32 := 0
  time : W32 := 0
  quality : W32 := 0
  rawHits : List Nat := []
  deriving DecidableEq, Repr

/-- All pointers of the object. -/
def TrackerHit.mapPtr (f : Nat → Nat) (o : TrackerHit) : TrackerHit := { o with rawHits := o.rawHits.map f }

/-- `SIOTrackerHitHandler::write`, src/cpp/src/SIO/SIOTrackerHitHandler.cc:62-87. `RTHBIT_ID1` is 31. -/
def TrackerHit.write (c : Ctx) (addr : Nat) (o : TrackerHit) : List Item :=
  w32 o.cellID0 ++ wIf (c.bit 31) (w32 o.cellID1) ++ w32 o.type ++ w64s o.pos ++ o.cov.flatMap w32 ++ w32 o.eDep ++ w32 o.eDepError ++
  w32 o.time ++ w32 o.quality ++ wEach wPtr o.rawHits ++ wTag addr

/-- `SIOTrackerHitHandler::read`, SIOTrackerHitHandler.cc:23-58. -/
def TrackerHit.read (c : Ctx) (vers : W32) (self : Nat) : RProg TrackerHit := do
  let cellID0 ← rIf (newer vers 1 51) r32 0
  let cellID1 ← rIf (newer vers 1 51 && c.bit 31) r32 0
  let type ← rIf (newer vers 1 2) r32 0
  let pos ← r64s 3
  let cov ← r32s 6
  let eDep ← r32
  let eDepError ← rIf (newer vers 1 12) r32 0
  let time ← r32
  let quality ← rIf (newer vers 1 11) r32 0
  let rawHits ← if newer vers 1 2 then rSized rPtr else rRepeat 1 rPtr
  rTag self
  return { cellID0, cellID1, type, pos, cov, eDep, eDepError, time, quality, rawHits }

/-- `IMPL::TrackerHitPlaneImpl`, src/cpp/include/IMPL/TrackerHitPlaneImpl.h. The covariance matrix is computed from the other members when
it is asked for and is left out. -/
structure TrackerHitPlane where
  cellID0 : W32 := 0
  cellID1 : W32 := 0
  type : W32 := 0
  pos : List W64 := zero3
  u : List W32 := zero2
  v : List W32 := zero2
  du : W32 := 0
  dv : W32 := 0
  eDep : W32 := 0
  eDepError : W32 := 0
  time : W32 := 0
  quality : W32 := 0
  rawHits : List Nat := []
  deriving DecidableEq, Repr

/-- All pointers of the object. -/
def TrackerHitPlane.mapPtr (f : Nat → Nat) (o : TrackerHitPlane) : TrackerHitPlane := { o with rawHits := o.rawHits.map f }

/-- `SIOTrackerHitPlaneHandler::write`, src/cpp/src/SIO/SIOTrackerHitPlaneHandler.cc:52-76. `RTHPBIT_ID1` is 31. -/
def TrackerHitPlane.write (c : Ctx) (addr : Nat) (o : TrackerHitPlane) : List Item :=
  w32 o.cellID0 ++ wIf (c.bit 31) (w32 o.cellID1) ++ w32 o.type ++ w64s o.pos ++ w32s o.u ++ w32s o.v ++ w32 o.du ++ w32 o.dv ++
  w32 o.eDep ++ w32 o.eDepError ++ w32 o.time ++ w32 o.quality ++ wEach wPtr o.rawHits ++ wTag addr

/-- `SIOTrackerHitPlaneHandler::read`, SIOTrackerHitPlaneHandler.cc:22-48. -/
def TrackerHitPlane.read (c : Ctx) (vers : W32) (self : Nat) : RProg TrackerHitPlane := do
  let cellID0 ← rIf (newer vers 1 51) r32 0
  let cellID1 ← rIf (newer vers 1 51 && c.bit 31) r32 0
  let type ← r32
  let pos ← r64s 3
  let u ← r32s 2
  let v ← r32s 2
  let du ← r32
  let dv ← r32
  let eDep ← r32
  let eDepError ← r32
  let time ← r32
  let quality ← r32
  let rawHits ← rSized rPtr
  rTag self
  return { cellID0, cellID1, type, pos, u, v, du, dv, eDep, eDepError, time, quality, rawHits }

/-- `IMPL::TrackerHitZCylinderImpl`, src/cpp/include/IMPL/TrackerHitZCylinderImpl.h (covariance matrix as for `TrackerHitPlane`). -/
structure TrackerHitZCylinder where
  cellID0 : W32 := 0
  cellID1 : W32 := 0
  type : W32 := 0
  pos : List W64 := zero3
  center : List W32 := zero2
  dRPhi : W32 := 0
  dZ : W32 := 0
  eDep : W32 := 0
  eDepError : W32 := 0
  time : W32 := 0
  quality : W32 := 0
  rawHits : List Nat := []
  deriving DecidableEq, Repr

/-- All pointers of the object. -/
def TrackerHitZCylinder.mapPtr (f : Nat → Nat) (o : TrackerHitZCylinder) : TrackerHitZCylinder := { o with rawHits := o.rawHits.map f }

/-- `SIOTrackerHitZCylinderHandler::write`, src/cpp/src/SIO/SIOTrackerHitZCylinderHandler.cc:51-74. `RTHZBIT_ID1` is 31. -/
def TrackerHitZCylinder.write (c : Ctx) (addr : Nat) (o : TrackerHitZCylinder) : List Item :=
  w32 o.cellID0 ++ wIf (c.bit 31) (w32 o.cellID1) ++ w32 o.type ++ w64s o.pos ++ w32s o.center ++ w32 o.dRPhi ++ w32 o.dZ ++
  w32 o.eDep ++ w32 o.eDepError ++ w32 o.time ++ w32 o.quality ++ wEach wPtr o.rawHits ++ wTag addr

/-- `SIOTrackerHitZCylinderHandler::read`, SIOTrackerHitZCylinderHandler.cc:22-47. -/
def TrackerHitZCylinder.read (c : Ctx) (vers : W32) (self : Nat) : RProg TrackerHitZCylinder := do
  let cellID0 ← rIf (newer vers 1 51) r32 0
  let cellID1 ← rIf (newer vers 1 51 && c.bit 31) r32 0
  let type ← r32
  let pos ← r64s 3
  let center ← r32s 2
  let dRPhi ← r32
  let dZ ← r32
  let eDep ← r32
  let eDepError ← r32
  let time ← r32
  let quality ← r32
  let rawHits ← rSized rPtr
  rTag self
  return { cellID0, cellID1, type, pos, center, dRPhi, dZ, eDep, eDepError, time, quality, rawHits }

/-- `IMPL::TrackerRawDataImpl`, src/cpp/include/IMPL/TrackerRawDataImpl.h (without `_channelID`, which nothing uses). -/
structure TrackerRawData where
  cellID0 : W32 := 0
  cellID1 : W32 := 0
  time : W32 := 0
  adc : List W16 := []
  deriving DecidableEq, Repr

/-- `SIOTrackerRawDataHandler::write`, src/cpp/src/SIO/SIOTrackerRawDataHandler.cc:35-45. `TRAWBIT_ID1` is 31. -/
def TrackerRawData.write (c : Ctx) (addr : Nat) (o : TrackerRawData) : List Item :=
  w32 o.cellID0 ++ wIf (c.bit 31) (w32 o.cellID1) ++ w32 o.time ++ wVec16 o.adc ++ wTag addr

/-- `SIOTrackerRawDataHandler::read`, SIOTrackerRawDataHandler.cc:21-31. -/
def TrackerRawData.read (c : Ctx) (self : Nat) : RProg TrackerRawData := do
  let cellID0 ← r32
  let cellID1 ← rIf (c.bit 31) r32 0
  let time ← r32
  let adc ← rVec16 []
  rTag self
  return { cellID0, cellID1, time, adc }

/-- `IMPL::TrackerDataImpl`, src/cpp/include/IMPL/TrackerDataImpl.h. -/
structure TrackerData where
  cellID0 : W32 := 0
  cellID1 : W32 := 0
  time : W32 := 0
  charge : List W32 := []
  deriving DecidableEq, Repr

/-- `SIOTrackerDataHandler::write`, src/cpp/src/SIO/SIOTrackerDataHandler.cc:36-46. -/
def TrackerData.write (c : Ctx) (addr : Nat) (o : TrackerData) : List Item :=
  w32 o.cellID0 ++ wIf (c.bit 31) (w32 o.cellID1) ++ w32 o.time ++ wVec32 o.charge ++ wTag addr

/-- `SIOTrackerDataHandler::read`, SIOTrackerDataHandler.cc:22-32. -/
def TrackerData.read (c : Ctx) (self : Nat) : RProg TrackerData := do
  let cellID0 ← r32
  let cellID1 ← rIf (c.bit 31) r32 0
  let time ← r32
  let charge ← rVec32 []
  rTag self
  return { cellID0, cellID1, time, charge }

/-- `IMPL::TrackerPulseImpl`, src/cpp/include/IMPL/TrackerPulseImpl.h. -/
structure TrackerPulse where
  cellID0 : W32 := 0
  cellID1 : W32 := 0
  time : W32 := 0
  charge : W32 := 0
  quality : W32 := 0
  cov : List W32 := List.replicate 3 0
  corrData : Nat := 0
  deriving DecidableEq, Repr

/-- All pointers of the object. -/
def TrackerPulse.mapPtr (f : Nat → Nat) (o : TrackerPulse) : TrackerPulse := { o with corrData := f o.corrData }

/-- `SIOTrackerPulseHandler::write`, src/cpp/src/SIO/SIOTrackerPulseHandler.cc:45-64. `TRAWBIT_ID1` is 31, `TRAWBIT_CM` 30. -/
def TrackerPulse.write (c : Ctx) (addr : Nat) (o : TrackerPulse) : List Item :=
  w32 o.cellID0 ++ wIf (c.bit 31) (w32 o.cellID1) ++ w32 o.time ++ w32 o.charge ++ wIf (c.bit 30) (o.cov.flatMap w32) ++ w32 o.quality ++
  wPtr o.corrData ++ wTag addr

/-- `SIOTrackerPulseHandler::read`, SIOTrackerPulseHandler.cc:22-41. -/
def TrackerPulse.read (c : Ctx) (vers : W32) (self : Nat) : RProg TrackerPulse := do
  let cellID0 ← r32
  let cellID1 ← rIf (c.bit 31) r32 0
  let time ← r32
  let charge ← r32
  let cov ← rIf (newer vers 1 12 && c.bit 30) (r32s 3) (List.replicate 3 0)
  let quality ← r32
  let corrData ← rPtr
  rTag self
  return { cellID0, cellID1, time, charge, cov, quality, corrData }

/-- `IMPL::TPCHitImpl`, src/cpp/include/IMPL/TPCHitImpl.h; `raw` is the array of `_rawSize` words. -/
structure TPCHit where
  cellID : W32 := 0
  time : W32 := 0
  charge : W32 := 0
  quality : W32 := 0
  raw : List W32 := []
  deriving DecidableEq, Repr

/-- `SIOTPCHitHandler::write`, src/cpp/src/SIO/SIOTPCHitHandler.cc:48-65. `TPCBIT_RAW` is 31, `TPCBIT_NO_PTR` 30. -/
def TPCHit.write (c : Ctx) (addr : Nat) (o : TPCHit) : List Item :=
  w32 o.cellID ++ w32 o.time ++ w32 o.charge ++ w32 o.quality ++ wIf (c.bit 31) (wFor w32 o.raw) ++ wIf (!c.bit 30) (wTag addr)

/-- `SIOTPCHitHandler::read`, SIOTPCHitHandler.cc:22-44. -/
def TPCHit.read (c : Ctx) (vers : W32) (self : Nat) : RProg TPCHit := do
  let cellID ← r32
  let time ← r32
  let charge ← r32
  let quality ← r32
  let raw ← rIf (c.bit 31) (do let n ← rCount; r32s n) []
  rIf (if newer vers 1 2 then !c.bit 30 else c.bit 30) (rTag self) ()
  return { cellID, time, charge, quality, raw }

/-! ## Track, cluster, reconstructed particle, vertex -/

/-- `IMPL::TrackStateImpl`, src/cpp/include/IMPL/TrackStateImpl.h. -/
structure TrackState where
  location : W32 := 0
  d0 : W32 := 0
  phi : W32 := 0
  omega : W32 := 0
  z0 : W32 := 0
  tanLambda : W32 := 0
  cov : List W32 := List.replicate 15 0
  reference : List W32 := zero3
  deriving DecidableEq, Repr

/-- `IMPL::TrackImpl`, src/cpp/include/IMPL/TrackImpl.h. A track owns its track states: nothing refers to them by address in a file. -/
structure Track where
  type : W32 := 0
  chi2 : W32 := 0
  ndf : W32 := 0
  dEdx : W32 := 0
  dEdxError : W32 := 0
  radius : W32 := 0
  hitNumbers : List W32 := []
  tracks : List Nat := []
  hits : List Nat := []
  states : List TrackState := []
  deriving DecidableEq, Repr

/-- All pointers of the object. -/
def Track.mapPtr (f : Nat → Nat) (o : Track) : Track := { o with tracks := o.tracks.map f, hits := o.hits.map f }

/-- The body of the loop of `SIOTrackHandler::write`, src/cpp/src/SIO/SIOTrackHandler.cc:87-97. -/
def TrackState.write (o : TrackState) : List Item :=
  w32 o.location ++ w32 o.d0 ++ w32 o.phi ++ w32 o.omega ++ w32 o.z0 ++ w32 o.tanLambda ++ o.cov.flatMap w32 ++ w32s o.reference

/-- `SIOTrackHandler::write`, SIOTrackHandler.cc:80-126. `TRBIT_HITS` is 31. -/
def Track.write (c : Ctx) (addr : Nat) (o : Track) : List Item :=
  w32 o.type ++ wEach TrackState.write o.states ++ w32 o.chi2 ++ w32 o.ndf ++ w32 o.dEdx ++ w32 o.dEdxError ++ w32 o.radius ++
  wFor w32 o.hitNumbers ++ wFor wPtr o.tracks ++ wIf (c.bit 31) (wFor wPtr o.hits) ++ wTag addr

/-- The body of the loop of `SIOTrackHandler::read`, SIOTrackHandler.cc:34-46. -/
def TrackState.read (vers : W32) : RProg TrackState := do
  let location ← rIf (atLeast vers 2 0) r32 0
  let d0 ← r32
  let phi ← r32
  let omega ← r32
  let z0 ← r32
  let tanLambda ← r32
  let cov ← r32s 15
  let reference ← r32s 3
  return { location, d0, phi, omega, z0, tanLambda, cov, reference }

/-- `TrackImpl::getTrackState`, src/cpp/src/IMPL/TrackImpl.cc:151-163: the first state at this location. -/
def getTrackState (states : List TrackState) (location : W32) : Option TrackState := states.find? fun s => s.location == location

/-- `TrackImpl::addTrackState`, TrackImpl.cc:350-360 (the track is not read-only). `AtOther` is 0. -/
def addTrackState (states : List TrackState) (s : TrackState) : Except Err (List TrackState) :=
  if s.location ≠ 0 ∧ (getTrackState states s.location).isSome then .error .lcException else .ok (states ++ [s])

/-- The loop of `SIOTrackHandler::read`, SIOTrackHandler.cc:32-48. -/
def readStates (vers : W32) : Nat → List TrackState → RProg (List TrackState)
  | 0, states => .ret states
  | n+1, states => do
    let s ← TrackState.read vers
    match addTrackState states s with
    | .error e => .throw e
    | .ok states => readStates vers n states

/-- `SIOTrackHandler::read`, SIOTrackHandler.cc:22-76. -/
def Track.read (c : Ctx) (vers : W32) (self : Nat) : RProg Track := do
  let type ← r32
  let n ← rIf (atLeast vers 2 0) r32 1
  let states ← readStates vers (loops n) []
  let chi2 ← r32
  let ndf ← r32
  let dEdx ← r32
  let dEdxError ← r32
  let radius ← r32
  let hitNumbers ← rSized r32
  let tracks ← rSized rPtr
  let hits ← rIf (c.bit 31) (rSized rPtr) []
  rTag self
  return { type, states, chi2, ndf, dEdx, dEdxError, radius, hitNumbers, tracks, hits }

/-- `IMPL::ClusterImpl`, src/cpp/include/IMPL/ClusterImpl.h. A cluster owns its particle ids; in a file nothing refers to them. -/
structure Cluster where
  type : W32 := 0
  energy : W32 := 0
  energyError : W32 := 0
  position : List W32 := zero3
  posError : List W32 := List.replicate 6 0
  theta : W32 := 0
  phi : W32 := 0
  dirError : List W32 := List.replicate 3 0
  shape : List W32 := []
  pids : List Pid := []
  clusters : List Nat := []
  hits : List Nat := []
  weights : List W32 := []
  energies : List W32 := []
  deriving DecidableEq, Repr

/-- All pointers of the object. -/
def Cluster.mapPtr (f : Nat → Nat) (o : Cluster) : Cluster := { o with clusters := o.clusters.map f, hits := o.hits.map f }

/-- The data members of a particle id, src/cpp/src/SIO/SIOClusterHandler.cc:135-143 and src/cpp/src/SIO/SIOReconstructedParticleHandler.cc:192-200. -/
def Pid.writeData (o : Pid) : List Item :=
  w32 o.likelihood ++ w32 o.type ++ w32 o.pdg ++ w32 o.algorithmType ++ wFor w32 o.params

/-- SIOClusterHandler.cc:156-159: `weights[i]` is undefined behaviour if there are fewer weights than hits. -/
def writeHits : List Nat → List W32 → List Item
  | [], _ => []
  | _ :: _, [] => [.bad]
  | h :: hs, w :: ws => wPtr h ++ w32 w ++ writeHits hs ws

/-- `SIOClusterHandler::write`, SIOClusterHandler.cc:105-169. `CLBIT_HITS` is 31. -/
def Cluster.write (c : Ctx) (addr : Nat) (o : Cluster) : List Item :=
  w32 o.type ++ w32 o.energy ++ w32 o.energyError ++ w32s o.position ++ o.posError.flatMap w32 ++ w32 o.theta ++ w32 o.phi ++
  o.dirError.flatMap w32 ++ wEach w32 o.shape ++ wFor Pid.writeData o.pids ++ wFor wPtr o.clusters ++
  wIf (c.bit 31) (w32 (BitVec.ofNat 32 o.hits.length) ++ writeHits (o.hits.take (loops (BitVec.ofNat 32 o.hits.length))) o.weights) ++
  wFor w32 o.energies ++ wTag addr

/-- SIOClusterHandler.cc:57-67 and SIOReconstructedParticleHandler.cc:56-66. -/
def Pid.readData : RProg Pid := do
  let likelihood ← r32
  let type ← r32
  let pdg ← r32
  let algorithmType ← r32
  let params ← rFor r32
  return { likelihood, type, pdg, algorithmType, params }

/-- `addParticleID` of `ClusterImpl` (src/cpp/src/IMPL/ClusterImpl.cc:120-125) and `ReconstructedParticleImpl`
(src/cpp/src/IMPL/ReconstructedParticleImpl.cc:162-168): the new id is appended, and the ids are sorted. -/
def addPid (std : Std Pid) (pids : List Pid) (p : Pid) : List Pid := std.sort (pids ++ [p])

/-- `SIOClusterHandler::read`, SIOClusterHandler.cc:22-101. The old format (up to version 1.2) has a fixed number of shape parameters,
`NSHAPE_OLD`, which is 6 (src/cpp/src/SIO/SIOClusterHandler.cc includes IMPL/ClusterImpl.h). The particle ids made here are not objects that can be
pointed at. -/
def Cluster.read (c : Ctx) (vers : W32) (self : Nat) : RProg Cluster := do
  let type ← r32
  let energy ← r32
  let energyError ← rIf (newer vers 1 51) r32 0
  let position ← r32s 3
  let posError ← r32s 6
  let theta ← r32
  let phi ← r32
  let dirError ← r32s 3
  let nShape ← if newer vers 1 2 then rCount else .ret 6
  let shape ← r32s nShape
  let pids ← if newer vers 1 2 then rFor Pid.readData else (do let _ ← r32s 3; pure [])
  let clusters ← rSized rPtr
  let hits ← rIf (c.bit 31) (rSized (do let h ← rPtr; let w ← r32; return (h, w))) []
  let energies ← rSized r32
  rTag self
  return { type, energy, energyError, position, posError, theta, phi, dirError, shape, clusters, energies,
           pids := pids.foldl (addPid c.std) [], hits := hits.map (·.1), weights := hits.map (·.2) }

/-- `IMPL::ReconstructedParticleImpl`, src/cpp/include/IMPL/ReconstructedParticleImpl.h. -/
structure RecoParticle where
  type : W32 := 0
  momentum : List W64 := zero3
  energy : W64 := 0
  cov : List W32 := List.replicate 10 0
  mass : W64 := 0
  charge : W32 := 0
  reference : List W32 := zero3
  pids : List Pid := []
  pidUsed : Nat := 0
  goodness : W32 := 0
  particles : List Nat := []
  tracks : List Nat := []
  clusters : List Nat := []
  startVertex : Nat := 0
  deriving DecidableEq, Repr

/-- All pointers of the object. -/
def RecoParticle.mapPtr (f : Nat → Nat) (o : RecoParticle) : RecoParticle :=
  { o with pidUsed := f o.pidUsed, particles := o.particles.map f, tracks := o.tracks.map f, clusters := o.clusters.map f, startVertex := f o.startVertex }

/-- SIOReconstructedParticleHandler.cc:191-201: the data of a particle id and its tag. -/
def Pid.write (o : Pid) : List Item := o.writeData ++ wTag o.addr

/-- `SIOReconstructedParticleHandler::write`, SIOReconstructedParticleHandler.cc:172-229. -/
def RecoParticle.write (c : Ctx) (addr : Nat) (o : RecoParticle) : List Item :=
  w32 o.type ++ (o.momentum.map c.std.narrow).flatMap w32 ++ w32 (c.std.narrow o.energy) ++ o.cov.flatMap w32 ++ w32 (c.std.narrow o.mass) ++
  w32 o.charge ++ w32s o.reference ++ wFor Pid.write o.pids ++ wPtr o.pidUsed ++ w32 o.goodness ++ wFor wPtr o.particles ++ wFor wPtr o.tracks ++
  wFor wPtr o.clusters ++ wPtr o.startVertex ++ wTag addr

/-- SIOReconstructedParticleHandler.cc:55-67: a new particle id. -/
def Pid.read : RProg Pid := do
  let id ← rNew
  let p ← Pid.readData
  rTag id
  return { p with addr := id }

/-- SIOReconstructedParticleHandler.cc:115-130, versions up to 1.2: a new particle id, without a tag. -/
def Pid.readOld : RProg Pid := do
  let id ← rNew
  let likelihood ← r32
  let type ← r32
  let algorithmType ← r32
  let params ← rFor r32
  return { addr := id, likelihood, type, algorithmType, params }

/-- SIOReconstructedParticleHandler.cc:132-142, 143-152 and 153-162, versions up to 1.2: pointers, each with a weight that is dropped. (If the vector
does not fit into the memory, `push_back` throws; that is not modelled.) -/
def rWeighted : RProg (List Nat) := rFor do
  let p ← rPtr
  let _ ← r32
  return p

/-- `SIO_DATA( device, &dummyWeights, n )`, SIOReconstructedParticleHandler.cc:166-167: `n` numbers are stored into the variable `dummyWeights`, which has
room for one. With more it is undefined behaviour. The conversion of a negative `int` to `size_t` gives `2^64 + n`. -/
def rDummy (n : W32) : RProg Unit :=
  .arr 4 (if n.toInt < 0 then 2 ^ 64 - (2 ^ 32 - n.toNat) else n.toNat) fun l => if l.length ≤ 1 then .ret () else .throw .ub

/-- The branch of `SIOReconstructedParticleHandler::read` for versions up to 1.2, SIOReconstructedParticleHandler.cc:98-168: momentum, energy and
mass are read into the data members, which are `double`. -/
def RecoParticle.readOld (c : Ctx) (self : Nat) : RProg RecoParticle := do
  let typeFlag ← r32
  let momentum ← r64s 3
  let energy ← r64
  let cov ← r32s 10
  let mass ← r64
  let charge ← r32
  let reference ← r32s 3
  let pids ← rFor Pid.readOld
  let particles ← rWeighted
  let tracks ← rWeighted
  let clusters ← rWeighted
  let nMCP ← r32
  rDummy nMCP
  rDummy nMCP
  rTag self
  return { type := 0x0000ffff &&& typeFlag, momentum, energy, cov, mass, charge, reference, particles, tracks, clusters,
           pids := pids.foldl (addPid c.std) [] }

/-- `SIOReconstructedParticleHandler::read`, SIOReconstructedParticleHandler.cc:25-171. -/
def RecoParticle.read (c : Ctx) (vers : W32) (self : Nat) : RProg RecoParticle :=
  if !newer vers 1 2 then RecoParticle.readOld c self else do
  let type ← r32
  let momentum ← r32s 3
  let energy ← r32
  let cov ← r32s 10
  let mass ← r32
  let charge ← r32
  let reference ← r32s 3
  let pids ← rFor Pid.read
  let pidUsed ← rPtr
  let goodness ← r32
  let particles ← rSized rPtr
  let tracks ← rSized rPtr
  let clusters ← rSized rPtr
  let startVertex ← rIf (newer vers 1 7) rPtr 0
  rTag self
  return { type, cov, charge, reference, pidUsed, goodness, particles, tracks, clusters, startVertex,
           momentum := momentum.map c.std.widen, energy := c.std.widen energy, mass := c.std.widen mass, pids := pids.foldl (addPid c.std) [] }

/-- `IMPL::VertexImpl`, src/cpp/include/IMPL/VertexImpl.h. -/
structure Vertex where
  primary : W32 := 0
  algorithmType : Str := str "Unknown"
  chi2 : W32 := 0
  probability : W32 := 0
  pos : List W32 := zero3
  cov : List W32 := List.replicate 6 0
  params : List W32 := []
  particle : Nat := 0
  deriving DecidableEq, Repr

/-- `VertexImpl::isPrimary`, src/cpp/src/IMPL/VertexImpl.cc:20. -/
def Vertex.isPrimary (o : Vertex) : Bool := o.primary != 0

/-- All pointers of the object. -/
def Vertex.mapPtr (f : Nat → Nat) (o : Vertex) : Vertex := { o with particle := f o.particle }

/-- `SIOVertexHandler::write`, src/cpp/src/SIO/SIOVertexHandler.cc:80-101. `isPrimary` is a `bool` and is written as one byte; `_set` is `algs`. -/
def Vertex.write (c : Ctx) (addr : Nat) (o : Vertex) : List Item :=
  wBool o.isPrimary ++ w32 (BitVec.ofNat 32 (c.algs.findIdx (· == o.algorithmType))) ++ w32 o.chi2 ++ w32 o.probability ++ w32s o.pos ++
  o.cov.flatMap w32 ++ wFor w32 o.params ++ wPtr o.particle ++ wTag addr

/-- `SIOVertexHandler::read`, SIOVertexHandler.cc:53-76. `_primary` is an `int`. `_imr[i]` is empty for an index that is not there. -/
def Vertex.read (c : Ctx) (self : Nat) : RProg Vertex := do
  let primary ← r32
  let alg ← r32
  let chi2 ← r32
  let probability ← r32
  let pos ← r32s 3
  let cov ← r32s 6
  let params ← rFor r32
  let particle ← rPtr
  rTag self
  return { primary, chi2, probability, pos, cov, params, particle, algorithmType := if alg.toInt < 0 then [] else c.algs.getD alg.toNat [] }

/-! ## Relations, vectors, generic objects -/

/-- `IMPL::LCRelationImpl`, src/cpp/include/IMPL/LCRelationImpl.h; the weight is `1.` by default. -/
structure Relation where
  from_ : Nat := 0
  to : Nat := 0
  weight : W32 := 0x3f800000
  deriving DecidableEq, Repr

/-- All pointers of the object. -/
def Relation.mapPtr (f : Nat → Nat) (o : Relation) : Relation := { o with from_ := f o.from_, to := f o.to }

/-- `SIOLCRelationHandler::write`, src/cpp/src/SIO/SIOLCRelationHandler.cc:31-40. `LCREL_WEIGHTED` is 31. -/
def Relation.write (c : Ctx) (o : Relation) : List Item := wPtr o.from_ ++ wPtr o.to ++ wIf (c.bit 31) (w32 o.weight)

/-- `SIOLCRelationHandler::read`, SIOLCRelationHandler.cc:20-27. -/
def Relation.read (c : Ctx) : RProg Relation := do
  let from_ ← rPtr
  let to ← rPtr
  let weight ← rIf (c.bit 31) r32 0x3f800000
  return { from_, to, weight }

/-- `SIOLCVecHandler::write`, src/cpp/include/SIO/SIOLCVecHandler.h:81-92, for the three types of elements. -/
def vecWrite {β : Type} (w : β → List Item) (addr : Nat) (l : List β) : List Item := wFor w l ++ wTag addr

/-- `SIOLCVecHandler::read`, SIOLCVecHandler.h:58-76. -/
def vecRead {β : Type} (r : RProg β) (vers : W32) (self : Nat) : RProg (List β) := do
  let l ← rSized r
  rIf (newer vers 1 2) (rTag self) ()
  return l

/-- `IMPL::LCGenericObjectImpl`, src/cpp/include/IMPL/LCGenericObjectImpl.h. `typeName` and `descr` are what the virtual functions
`getTypeName` and `getDataDescription` return (src/cpp/src/IMPL/LCGenericObjectImpl.cc:8-9, 72-78); user classes may redefine them. -/
structure Generic where
  ints : List W32 := []
  floats : List W32 := []
  doubles : List W64 := []
  fixed : Bool := false
  typeName : Str := str "LCGenericObject"
  descr : Str := []
  deriving DecidableEq, Repr

/-- `for(int i=0; i<n; i++) SIO_SDATA(device, gObj->getXxxVal(i))`: `v[i]` outside the vector is undefined behaviour
(LCGenericObjectImpl.cc:38-48). -/
def writeFirst {β : Type} (w : β → List Item) (n : W32) (l : List β) : List Item :=
  if loops n ≤ l.length then (l.take (loops n)).flatMap w else [.bad]

/-- `SIOLCGenericObjectHandler::write`, src/cpp/src/SIO/SIOLCGenericObjectHandler.cc:101-122. -/
def Generic.write (c : Ctx) (addr : Nat) (o : Generic) : List Item :=
  let nInt := if c.fixed then c.nInt else BitVec.ofNat 32 o.ints.length
  let nFloat := if c.fixed then c.nFloat else BitVec.ofNat 32 o.floats.length
  let nDouble := if c.fixed then c.nDouble else BitVec.ofNat 32 o.doubles.length
  wIf (!c.fixed) (w32 nInt) ++ wIf (!c.fixed) (w32 nFloat) ++ wIf (!c.fixed) (w32 nDouble) ++
  writeFirst w32 nInt o.ints ++ writeFirst w32 nFloat o.floats ++ writeFirst w64 nDouble o.doubles ++ wTag addr

/-- `SIOLCGenericObjectHandler::read`, SIOLCGenericObjectHandler.cc:82-97. -/
def Generic.read (c : Ctx) (self : Nat) : RProg Generic := do
  let nInt ← rIf (!c.fixed) r32 c.nInt
  let nFloat ← rIf (!c.fixed) r32 c.nFloat
  let nDouble ← rIf (!c.fixed) r32 c.nDouble
  if nInt.toInt < 0 ∨ nFloat.toInt < 0 ∨ nDouble.toInt < 0 then .throw .lengthError
  else do
    let ints ← r32s nInt.toNat
    let floats ← r32s nFloat.toNat
    let doubles ← r64s nDouble.toNat
    rTag self
    return { ints, floats, doubles, fixed := c.fixed }

end Lcio
