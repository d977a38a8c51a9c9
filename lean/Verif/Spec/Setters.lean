import Verif.Lcio.Setters
/-
What setters are meant to do.
-/
namespace Spec
open Sio Lcio

/-- The word in which bit `i` is `b` and the others are those of `w`. -/
def withBit (i : Nat) (b : Bool) : Val → Val
  | .w32 w => .w32 (BitVec.ofBoolListLE ((List.range 32).map fun j => if j = i then b else w.getLsbD j))
  | x => x

/-- The list with another one added at the end. -/
def appended : Val → Val → Val
  | .ptrs b, .ptrs a => .ptrs (a ++ b)
  | .f32s b, .f32s a => .f32s (a ++ b)
  | .texts b, .texts a => .texts (a ++ b)
  | _, x => x

/-- A call that succeeds if the object is not read-only; afterwards the getter `meant.1` returns what is meant, and all other getters what they
returned before. -/
def SetsOne {O S G : Type} (change : Bool → O → S → Except Err O) (get : O → G → Val) (s : S) (meant : G × (Val → Val)) (o : O) : Prop :=
  ∃ o' : O, change false o s = .ok o' ∧ get o' meant.1 = meant.2 (get o meant.1) ∧ ∀ g : G, g ≠ meant.1 → get o' g = get o g

/-- A call that throws `ReadOnlyException` on every read-only object. -/
def Refused {O S : Type} (change : Bool → O → S → Except Err O) (s : S) : Prop := ∀ o : O, change true o s = .error .readOnly

/-! ## MCParticleImpl -/

/-- The member functions of MCParticleImpl that are meant to set one attribute: which getter belongs to the setter, and the value the getter is meant to return
afterwards, given what it returned before. -/
def mCParticleMeant (std : Std Pid) : MCParticle.Setter → Option (MCParticle.Getter × (Val → Val))
  | .addDaughter v => some (.getDaughters, appended (.ptrs [v]))
  | .addParent v => some (.getParents, fun old => match old with | .ptrs l => .ptrs (if v ∈ l then l else l ++ [v]) | x => x)
  | .setPDG v => some (.getPDG, fun _ => .w32 v)
  | .setGeneratorStatus v => some (.getGeneratorStatus, fun _ => .w32 v)
  | .setSimulatorStatus v => some (.getSimulatorStatus, fun _ => .w32 v)
  | .setVertex v => some (.getVertex, fun _ => .f64s (v.take 3))
  | .setTime v => some (.getTime, fun _ => .w32 v)
  | .setMomentumFloat v => some (.getMomentum, fun _ => .f64s ((v.take 3).map std.widen))
  | .setMomentum v => some (.getMomentum, fun _ => .f64s (v.take 3))
  | .setMomentumAtEndpointFloat v => some (.getMomentumAtEndpoint, fun _ => .f64s ((v.take 3).map std.widen))
  | .setMomentumAtEndpoint v => some (.getMomentumAtEndpoint, fun _ => .f64s (v.take 3))
  | .setMass v => some (.getMass, fun _ => .w64 (std.widen v))
  | .setCharge v => some (.getCharge, fun _ => .w32 v)
  | .setSpin v => some (.getSpin, fun _ => .f32s (v.take 3))
  | .setColorFlow v => some (.getColorFlow, fun _ => .f32s (v.take 2))
  | .setCreatedInSimulation val => some (.getSimulatorStatus, withBit 30 val)
  | .setBackscatter val => some (.getSimulatorStatus, withBit 29 val)
  | .setVertexIsNotEndpointOfParent val => some (.getSimulatorStatus, withBit 28 val)
  | .setDecayedInTracker val => some (.getSimulatorStatus, withBit 27 val)
  | .setDecayedInCalorimeter val => some (.getSimulatorStatus, withBit 26 val)
  | .setHasLeftDetector val => some (.getSimulatorStatus, withBit 25 val)
  | .setStopped val => some (.getSimulatorStatus, withBit 24 val)
  | .setOverlay val => some (.getSimulatorStatus, withBit 23 val)
  | _ => none

/-- The argument is usable: arrays have as many entries as are copied, bit numbers are those of a word. -/
def mCParticleUsable : MCParticle.Setter → Prop
  | .setVertex v => 3 ≤ v.length
  | .setMomentumFloat v => 3 ≤ v.length
  | .setMomentum v => 3 ≤ v.length
  | .setMomentumAtEndpointFloat v => 3 ≤ v.length
  | .setMomentumAtEndpoint v => 3 ≤ v.length
  | .setSpin v => 3 ≤ v.length
  | .setColorFlow v => 2 ≤ v.length
  | _ => True

/-- The member functions of MCParticleImpl that do not look at the access mode. -/
def mCParticleUnchecked : MCParticle.Setter → Bool
  | .setCreatedInSimulation _ => true
  | .setBackscatter _ => true
  | .setVertexIsNotEndpointOfParent _ => true
  | .setDecayedInTracker _ => true
  | .setDecayedInCalorimeter _ => true
  | .setHasLeftDetector _ => true
  | .setStopped _ => true
  | .setOverlay _ => true
  | _ => false

/-! ## SimCalorimeterHitImpl -/

/-- The member functions of SimCalorimeterHitImpl that are meant to set one attribute: which getter belongs to the setter, and the value the getter is meant to return
afterwards, given what it returned before. -/
def simCalHitMeant : SimCalHit.Setter → Option (SimCalHit.Getter × (Val → Val))
  | .setCellID0 v => some (.getCellID0, fun _ => .w32 v)
  | .setCellID1 v => some (.getCellID1, fun _ => .w32 v)
  | .setEnergy v => some (.getEnergy, fun _ => .w32 v)
  | .setPosition v => some (.getPosition, fun _ => .f32s (v.take 3))
  | _ => none

/-- The argument is usable: arrays have as many entries as are copied, bit numbers are those of a word. -/
def simCalHitUsable : SimCalHit.Setter → Prop
  | .setPosition v => 3 ≤ v.length
  | _ => True

/-! ## CalorimeterHitImpl -/

/-- The member functions of CalorimeterHitImpl that are meant to set one attribute: which getter belongs to the setter, and the value the getter is meant to return
afterwards, given what it returned before. -/
def calHitMeant : CalHit.Setter → Option (CalHit.Getter × (Val → Val))
  | .setCellID0 v => some (.getCellID0, fun _ => .w32 v)
  | .setCellID1 v => some (.getCellID1, fun _ => .w32 v)
  | .setEnergy v => some (.getEnergy, fun _ => .w32 v)
  | .setEnergyError v => some (.getEnergyError, fun _ => .w32 v)
  | .setTime v => some (.getTime, fun _ => .w32 v)
  | .setPosition v => some (.getPosition, fun _ => .f32s (v.take 3))
  | .setType v => some (.getType, fun _ => .w32 v)
  | .setRawHit v => some (.getRawHit, fun _ => .ptr v)

/-- The argument is usable: arrays have as many entries as are copied, bit numbers are those of a word. -/
def calHitUsable : CalHit.Setter → Prop
  | .setPosition v => 3 ≤ v.length
  | _ => True

/-! ## RawCalorimeterHitImpl -/

/-- The member functions of RawCalorimeterHitImpl that are meant to set one attribute: which getter belongs to the setter, and the value the getter is meant to return
afterwards, given what it returned before. -/
def rawCalHitMeant : RawCalHit.Setter → Option (RawCalHit.Getter × (Val → Val))
  | .setCellID0 v => some (.getCellID0, fun _ => .w32 v)
  | .setCellID1 v => some (.getCellID1, fun _ => .w32 v)
  | .setAmplitude v => some (.getAmplitude, fun _ => .w32 v)
  | .setTimeStamp v => some (.getTimeStamp, fun _ => .w32 v)

/-! ## SimTrackerHitImpl -/

/-- The member functions of SimTrackerHitImpl that are meant to set one attribute: which getter belongs to the setter, and the value the getter is meant to return
afterwards, given what it returned before. -/
def simTrackerHitMeant : SimTrackerHit.Setter → Option (SimTrackerHit.Getter × (Val → Val))
  | .setCellID0 v => some (.getCellID0, fun _ => .w32 v)
  | .setCellID1 v => some (.getCellID1, fun _ => .w32 v)
  | .setPosition v => some (.getPosition, fun _ => .f64s (v.take 3))
  | .setdEdx v => some (.getEDep, fun _ => .w32 v)
  | .setEDep v => some (.getEDep, fun _ => .w32 v)
  | .setTime v => some (.getTime, fun _ => .w32 v)
  | .setMCParticle v => some (.getMCParticle, fun _ => .ptr v)
  | .setMomentum v => some (.getMomentum, fun _ => .f32s (v.take 3))
  | .setPathLength v => some (.getPathLength, fun _ => .w32 v)
  | .setQuality v => some (.getQuality, fun _ => .w32 v)
  | .setQualityBit bit val => some (.getQuality, withBit bit.toNat val)
  | .setOverlay val => some (.getQuality, withBit 31 val)
  | .setProducedBySecondary val => some (.getQuality, withBit 30 val)

/-- The argument is usable: arrays have as many entries as are copied, bit numbers are those of a word. -/
def simTrackerHitUsable : SimTrackerHit.Setter → Prop
  | .setPosition v => 3 ≤ v.length
  | .setMomentum v => 3 ≤ v.length
  | .setQualityBit bit _ => 0 ≤ bit ∧ bit < 32
  | _ => True

/-! ## TrackerHitImpl -/

/-- The member functions of TrackerHitImpl that are meant to set one attribute: which getter belongs to the setter, and the value the getter is meant to return
afterwards, given what it returned before. -/
def trackerHitMeant : TrackerHit.Setter → Option (TrackerHit.Getter × (Val → Val))
  | .rawHits v => some (.getRawHits, fun _ => .ptrs v)
  | .setCellID0 v => some (.getCellID0, fun _ => .w32 v)
  | .setCellID1 v => some (.getCellID1, fun _ => .w32 v)
  | .setType v => some (.getType, fun _ => .w32 v)
  | .setPosition v => some (.getPosition, fun _ => .f64s (v.take 3))
  | .setdEdx v => some (.getEDep, fun _ => .w32 v)
  | .setEDep v => some (.getEDep, fun _ => .w32 v)
  | .setEDepError v => some (.getEDepError, fun _ => .w32 v)
  | .setTime v => some (.getTime, fun _ => .w32 v)
  | .setQuality v => some (.getQuality, fun _ => .w32 v)
  | .setQualityBit bit val => some (.getQuality, withBit bit.toNat val)
  | .setCovMatrix v => some (.getCovMatrix, fun _ => .f32s (v.take 6))

/-- The argument is usable: arrays have as many entries as are copied, bit numbers are those of a word. -/
def trackerHitUsable : TrackerHit.Setter → Prop
  | .setPosition v => 3 ≤ v.length
  | .setCovMatrix v => 6 ≤ v.length
  | .setQualityBit bit _ => 0 ≤ bit ∧ bit < 32
  | _ => True

/-! ## TrackerHitPlaneImpl -/

/-- The member functions of TrackerHitPlaneImpl that are meant to set one attribute: which getter belongs to the setter, and the value the getter is meant to return
afterwards, given what it returned before. -/
def trackerHitPlaneMeant : TrackerHitPlane.Setter → Option (TrackerHitPlane.Getter × (Val → Val))
  | .setCellID0 v => some (.getCellID0, fun _ => .w32 v)
  | .setCellID1 v => some (.getCellID1, fun _ => .w32 v)
  | .setType v => some (.getType, fun _ => .w32 v)
  | .setPosition v => some (.getPosition, fun _ => .f64s (v.take 3))
  | .setU theta phi => some (.getU, fun _ => .f32s [theta, phi])
  | .setV theta phi => some (.getV, fun _ => .f32s [theta, phi])
  | .setdU v => some (.getdU, fun _ => .w32 v)
  | .setdV v => some (.getdV, fun _ => .w32 v)
  | .setEDep v => some (.getEDep, fun _ => .w32 v)
  | .setEDepError v => some (.getEDepError, fun _ => .w32 v)
  | .setTime v => some (.getTime, fun _ => .w32 v)
  | .setQuality v => some (.getQuality, fun _ => .w32 v)
  | .setQualityBit bit val => some (.getQuality, withBit bit.toNat val)
  | .rawHits v => some (.getRawHits, fun _ => .ptrs v)

/-- The argument is usable: arrays have as many entries as are copied, bit numbers are those of a word. -/
def trackerHitPlaneUsable : TrackerHitPlane.Setter → Prop
  | .setPosition v => 3 ≤ v.length
  | .setQualityBit bit _ => 0 ≤ bit ∧ bit < 32
  | _ => True

/-- The member functions of TrackerHitPlaneImpl that do not look at the access mode. -/
def trackerHitPlaneUnchecked : TrackerHitPlane.Setter → Bool
  | .rawHits _ => true
  | _ => false

/-! ## TrackerHitZCylinderImpl -/

/-- The member functions of TrackerHitZCylinderImpl that are meant to set one attribute: which getter belongs to the setter, and the value the getter is meant to return
afterwards, given what it returned before. -/
def trackerHitZCylinderMeant : TrackerHitZCylinder.Setter → Option (TrackerHitZCylinder.Getter × (Val → Val))
  | .setCellID0 v => some (.getCellID0, fun _ => .w32 v)
  | .setCellID1 v => some (.getCellID1, fun _ => .w32 v)
  | .setType v => some (.getType, fun _ => .w32 v)
  | .setPosition v => some (.getPosition, fun _ => .f64s (v.take 3))
  | .setCenter xc yc => some (.getCenter, fun _ => .f32s [xc, yc])
  | .setdRPhi v => some (.getdRPhi, fun _ => .w32 v)
  | .setdZ v => some (.getdZ, fun _ => .w32 v)
  | .setEDep v => some (.getEDep, fun _ => .w32 v)
  | .setEDepError v => some (.getEDepError, fun _ => .w32 v)
  | .setTime v => some (.getTime, fun _ => .w32 v)
  | .setQuality v => some (.getQuality, fun _ => .w32 v)
  | .setQualityBit bit val => some (.getQuality, withBit bit.toNat val)
  | .rawHits v => some (.getRawHits, fun _ => .ptrs v)

/-- The argument is usable: arrays have as many entries as are copied, bit numbers are those of a word. -/
def trackerHitZCylinderUsable : TrackerHitZCylinder.Setter → Prop
  | .setPosition v => 3 ≤ v.length
  | .setQualityBit bit _ => 0 ≤ bit ∧ bit < 32
  | _ => True

/-- The member functions of TrackerHitZCylinderImpl that do not look at the access mode. -/
def trackerHitZCylinderUnchecked : TrackerHitZCylinder.Setter → Bool
  | .rawHits _ => true
  | _ => false

/-! ## TrackerRawDataImpl -/

/-- The member functions of TrackerRawDataImpl that are meant to set one attribute: which getter belongs to the setter, and the value the getter is meant to return
afterwards, given what it returned before. -/
def trackerRawDataMeant : TrackerRawData.Setter → Option (TrackerRawData.Getter × (Val → Val))
  | .setCellID0 v => some (.getCellID0, fun _ => .w32 v)
  | .setCellID1 v => some (.getCellID1, fun _ => .w32 v)
  | .setTime v => some (.getTime, fun _ => .w32 v)
  | .setADCValues v => some (.getADCValues, fun _ => .i16s v)
  | .adcValues v => some (.getADCValues, fun _ => .i16s v)
  | _ => none

/-! ## TrackerDataImpl -/

/-- The member functions of TrackerDataImpl that are meant to set one attribute: which getter belongs to the setter, and the value the getter is meant to return
afterwards, given what it returned before. -/
def trackerDataMeant : TrackerData.Setter → Option (TrackerData.Getter × (Val → Val))
  | .setCellID0 v => some (.getCellID0, fun _ => .w32 v)
  | .setCellID1 v => some (.getCellID1, fun _ => .w32 v)
  | .setTime v => some (.getTime, fun _ => .w32 v)
  | .setChargeValues v => some (.getChargeValues, fun _ => .f32s v)
  | .chargeValues v => some (.getChargeValues, fun _ => .f32s v)
  | _ => none

/-! ## TrackerPulseImpl -/

/-- The member functions of TrackerPulseImpl that are meant to set one attribute: which getter belongs to the setter, and the value the getter is meant to return
afterwards, given what it returned before. -/
def trackerPulseMeant : TrackerPulse.Setter → Option (TrackerPulse.Getter × (Val → Val))
  | .setCellID0 v => some (.getCellID0, fun _ => .w32 v)
  | .setCellID1 v => some (.getCellID1, fun _ => .w32 v)
  | .setTime v => some (.getTime, fun _ => .w32 v)
  | .setCharge v => some (.getCharge, fun _ => .w32 v)
  | .setCovMatrix v => some (.getCovMatrix, fun _ => .f32s (v.take 3))
  | .setQuality v => some (.getQuality, fun _ => .w32 v)
  | .setQualityBit bit val => some (.getQuality, withBit bit.toNat val)
  | .setTrackerData v => some (.getTrackerData, fun _ => .ptr v)

/-- The argument is usable: arrays have as many entries as are copied, bit numbers are those of a word. -/
def trackerPulseUsable : TrackerPulse.Setter → Prop
  | .setCovMatrix v => 3 ≤ v.length
  | .setQualityBit bit _ => 0 ≤ bit ∧ bit < 32
  | _ => True

/-! ## TPCHitImpl -/

/-- The member functions of TPCHitImpl that are meant to set one attribute: which getter belongs to the setter, and the value the getter is meant to return
afterwards, given what it returned before. -/
def tPCHitMeant : TPCHit.Setter → Option (TPCHit.Getter × (Val → Val))
  | .setCellID v => some (.getCellID, fun _ => .w32 v)
  | .setTime v => some (.getTime, fun _ => .w32 v)
  | .setCharge v => some (.getCharge, fun _ => .w32 v)
  | .setQuality v => some (.getQuality, fun _ => .w32 v)
  | .setRawData v => some (.getRawData, fun _ => .f32s v)
  | .initRawArray v => some (.getRawData, fun _ => .f32s v)

/-- The member functions of TPCHitImpl that do not look at the access mode. -/
def tPCHitUnchecked : TPCHit.Setter → Bool
  | .initRawArray _ => true
  | _ => false

/-! ## TrackStateImpl -/

/-- The member functions of TrackStateImpl that are meant to set one attribute: which getter belongs to the setter, and the value the getter is meant to return
afterwards, given what it returned before. -/
def trackStateMeant : TrackState.Setter → Option (TrackState.Getter × (Val → Val))
  | .setLocation v => some (.getLocation, fun _ => .w32 v)
  | .setD0 v => some (.getD0, fun _ => .w32 v)
  | .setPhi v => some (.getPhi, fun _ => .w32 v)
  | .setOmega v => some (.getOmega, fun _ => .w32 v)
  | .setZ0 v => some (.getZ0, fun _ => .w32 v)
  | .setTanLambda v => some (.getTanLambda, fun _ => .w32 v)
  | .setCovMatrix v => some (.getCovMatrix, fun _ => .f32s (v.take 15))
  | .setReferencePoint v => some (.getReferencePoint, fun _ => .f32s (v.take 3))

/-- The argument is usable: arrays have as many entries as are copied, bit numbers are those of a word. -/
def trackStateUsable : TrackState.Setter → Prop
  | .setCovMatrix v => 15 ≤ v.length
  | .setReferencePoint v => 3 ≤ v.length
  | _ => True

/-! ## TrackImpl -/

/-- The member functions of TrackImpl that are meant to set one attribute: which getter belongs to the setter, and the value the getter is meant to return
afterwards, given what it returned before. -/
def trackMeant : Track.Setter → Option (Track.Getter × (Val → Val))
  | .setTypeBit bit val => some (.getType, withBit bit.toNat val)
  | .setType v => some (.getType, fun _ => .w32 v)
  | .setChi2 v => some (.getChi2, fun _ => .w32 v)
  | .setNdf v => some (.getNdf, fun _ => .w32 v)
  | .setdEdx v => some (.getdEdx, fun _ => .w32 v)
  | .setdEdxError v => some (.getdEdxError, fun _ => .w32 v)
  | .addHit v => some (.getTrackerHits, appended (.ptrs [v]))
  | .addTrack v => some (.getTracks, appended (.ptrs [v]))
  | .subdetectorHitNumbers v => some (.getSubdetectorHitNumbers, fun _ => .f32s v)
  | .setRadiusOfInnermostHit v => some (.getRadiusOfInnermostHit, fun _ => .w32 v)
  | .setD0 v => some (.getD0, fun _ => .w32 v)
  | .setPhi v => some (.getPhi, fun _ => .w32 v)
  | .setOmega v => some (.getOmega, fun _ => .w32 v)
  | .setZ0 v => some (.getZ0, fun _ => .w32 v)
  | .setTanLambda v => some (.getTanLambda, fun _ => .w32 v)
  | .setCovMatrix v => some (.getCovMatrix, fun _ => .f32s (v.take 15))
  | .setReferencePoint v => some (.getReferencePoint, fun _ => .f32s (v.take 3))
  | _ => none

/-- The argument is usable: arrays have as many entries as are copied, bit numbers are those of a word. -/
def trackUsable : Track.Setter → Prop
  | .setCovMatrix v => 15 ≤ v.length
  | .setReferencePoint v => 3 ≤ v.length
  | .setTypeBit bit _ => 0 ≤ bit ∧ bit < 32
  | _ => True

/-- The member functions of TrackImpl that do not look at the access mode. -/
def trackUnchecked : Track.Setter → Bool
  | .addHit _ => true
  | .setD0 _ => true
  | .setPhi _ => true
  | .setOmega _ => true
  | .setZ0 _ => true
  | .setTanLambda _ => true
  | .setCovMatrix _ => true
  | .setReferencePoint _ => true
  | _ => false

/-! ## ClusterImpl -/

/-- The member functions of ClusterImpl that are meant to set one attribute: which getter belongs to the setter, and the value the getter is meant to return
afterwards, given what it returned before. -/
def clusterMeant : Cluster.Setter → Option (Cluster.Getter × (Val → Val))
  | .setType v => some (.getType, fun _ => .w32 v)
  | .setEnergy v => some (.getEnergy, fun _ => .w32 v)
  | .setEnergyError v => some (.getEnergyError, fun _ => .w32 v)
  | .setPosition v => some (.getPosition, fun _ => .f32s (v.take 3))
  | .setPositionError v => some (.getPositionError, fun _ => .f32s (v.take 6))
  | .setITheta v => some (.getITheta, fun _ => .w32 v)
  | .setIPhi v => some (.getIPhi, fun _ => .w32 v)
  | .setDirectionError v => some (.getDirectionError, fun _ => .f32s (v.take 3))
  | .setShape v => some (.getShape, fun _ => .f32s v)
  | .addCluster v => some (.getClusters, appended (.ptrs [v]))
  | .setTypeBit bit val => some (.getType, withBit bit.toNat val)
  | .subdetectorEnergies v => some (.getSubdetectorEnergies, fun _ => .f32s v)
  | _ => none

/-- The argument is usable: arrays have as many entries as are copied, bit numbers are those of a word. -/
def clusterUsable : Cluster.Setter → Prop
  | .setPosition v => 3 ≤ v.length
  | .setPositionError v => 6 ≤ v.length
  | .setDirectionError v => 3 ≤ v.length
  | .setTypeBit bit _ => 0 ≤ bit ∧ bit < 32
  | _ => True

/-- The member functions of ClusterImpl that do not look at the access mode. -/
def clusterUnchecked : Cluster.Setter → Bool
  | .addHit _ _ => true
  | _ => false

/-! ## ParticleIDImpl -/

/-- The member functions of ParticleIDImpl that are meant to set one attribute: which getter belongs to the setter, and the value the getter is meant to return
afterwards, given what it returned before. -/
def pidMeant : Pid.Setter → Option (Pid.Getter × (Val → Val))
  | .setType v => some (.getType, fun _ => .w32 v)
  | .setPDG v => some (.getPDG, fun _ => .w32 v)
  | .setLikelihood v => some (.getLikelihood, fun _ => .w32 v)
  | .setAlgorithmType v => some (.getAlgorithmType, fun _ => .w32 v)
  | .addParameter v => some (.getParameters, appended (.f32s [v]))
  | .parameters v => some (.getParameters, fun _ => .f32s v)

/-- The member functions of ParticleIDImpl that do not look at the access mode. -/
def pidUnchecked : Pid.Setter → Bool
  | .parameters _ => true
  | _ => false

/-! ## ReconstructedParticleImpl -/

/-- The member functions of ReconstructedParticleImpl that are meant to set one attribute: which getter belongs to the setter, and the value the getter is meant to return
afterwards, given what it returned before. -/
def recoParticleMeant (std : Std Pid) : RecoParticle.Setter → Option (RecoParticle.Getter × (Val → Val))
  | .setStartVertex v => some (.getStartVertex, fun _ => .ptr v)
  | .setType v => some (.getType, fun _ => .w32 v)
  | .setMomentumFloat v => some (.getMomentum, fun _ => .f64s ((v.take 3).map std.widen))
  | .setMomentum v => some (.getMomentum, fun _ => .f64s (v.take 3))
  | .setEnergy v => some (.getEnergy, fun _ => .w64 (std.widen v))
  | .setCovMatrix v => some (.getCovMatrix, fun _ => .f32s (v.take 10))
  | .setMass v => some (.getMass, fun _ => .w64 (std.widen v))
  | .setCharge v => some (.getCharge, fun _ => .w32 v)
  | .setReferencePoint v => some (.getReferencePoint, fun _ => .f32s (v.take 3))
  | .setParticleIDUsed v => some (.getParticleIDUsed, fun _ => .ptr v)
  | .setGoodnessOfPID v => some (.getGoodnessOfPID, fun _ => .w32 v)
  | .addParticle v => some (.getParticles, appended (.ptrs [v]))
  | .addCluster v => some (.getClusters, appended (.ptrs [v]))
  | .addTrack v => some (.getTracks, appended (.ptrs [v]))
  | _ => none

/-- The argument is usable: arrays have as many entries as are copied, bit numbers are those of a word. -/
def recoParticleUsable : RecoParticle.Setter → Prop
  | .setMomentumFloat v => 3 ≤ v.length
  | .setMomentum v => 3 ≤ v.length
  | .setCovMatrix v => 10 ≤ v.length
  | .setReferencePoint v => 3 ≤ v.length
  | _ => True

/-- The member functions of ReconstructedParticleImpl that do not look at the access mode. -/
def recoParticleUnchecked : RecoParticle.Setter → Bool
  | .addParticleID _ => true
  | _ => false

/-! ## VertexImpl -/

/-- The member functions of VertexImpl that are meant to set one attribute: which getter belongs to the setter, and the value the getter is meant to return
afterwards, given what it returned before. -/
def vertexMeant : Vertex.Setter → Option (Vertex.Getter × (Val → Val))
  | .setPrimary v => some (.isPrimary, fun _ => .flag v)
  | .setAlgorithmType v => some (.getAlgorithmType, fun _ => .text v)
  | .setChi2 v => some (.getChi2, fun _ => .w32 v)
  | .setProbability v => some (.getProbability, fun _ => .w32 v)
  | .setPosition v => some (.getPosition, fun _ => .f32s (v.take 3))
  | .setCovMatrix v => some (.getCovMatrix, fun _ => .f32s (v.take 6))
  | .setAssociatedParticle v => some (.getAssociatedParticle, fun _ => .ptr v)
  | .addParameter v => some (.getParameters, appended (.f32s [v]))

/-- The argument is usable: arrays have as many entries as are copied, bit numbers are those of a word. -/
def vertexUsable : Vertex.Setter → Prop
  | .setPosition v => 3 ≤ v.length
  | .setCovMatrix v => 6 ≤ v.length
  | _ => True

/-! ## LCRelationImpl -/

/-- The member functions of LCRelationImpl that are meant to set one attribute: which getter belongs to the setter, and the value the getter is meant to return
afterwards, given what it returned before. -/
def relationMeant : Relation.Setter → Option (Relation.Getter × (Val → Val))
  | .setFrom v => some (.getFrom, fun _ => .ptr v)
  | .setTo v => some (.getTo, fun _ => .ptr v)
  | .setWeight v => some (.getWeight, fun _ => .w32 v)

/-- The member functions of LCRelationImpl that do not look at the access mode. -/
def relationUnchecked : Relation.Setter → Bool
  | .setFrom _ => true
  | .setTo _ => true
  | .setWeight _ => true

/-! ## LCRunHeaderImpl -/

/-- The member functions of LCRunHeaderImpl that are meant to set one attribute: which getter belongs to the setter, and the value the getter is meant to return
afterwards, given what it returned before. -/
def runHeaderMeant : RunHeader.Setter → Option (RunHeader.Getter × (Val → Val))
  | .setRunNumber v => some (.getRunNumber, fun _ => .w32 v)
  | .setDetectorName v => some (.getDetectorName, fun _ => .text v)
  | .setDescription v => some (.getDescription, fun _ => .text v)
  | .addActiveSubdetector v => some (.getActiveSubdetectors, appended (.texts [v]))
  | _ => none

/-- The member functions of LCRunHeaderImpl that do not look at the access mode. -/
def runHeaderUnchecked : RunHeader.Setter → Bool
  | .addActiveSubdetector _ => true
  | .parameters _ => true
  | _ => false

/-! ## LCEventImpl -/

/-- The member functions of LCEventImpl that are meant to set one attribute: which getter belongs to the setter, and the value the getter is meant to return
afterwards, given what it returned before. -/
def eventHeaderMeant : EventHeader.Setter → Option (EventHeader.Getter × (Val → Val))
  | .setRunNumber v => some (.getRunNumber, fun _ => .w32 v)
  | .setEventNumber v => some (.getEventNumber, fun _ => .w32 v)
  | .setDetectorName v => some (.getDetectorName, fun _ => .text v)
  | .setTimeStamp v => some (.getTimeStamp, fun _ => .w64 v)
  | _ => none

/-- The member functions of LCEventImpl that do not look at the access mode. -/
def eventHeaderUnchecked : EventHeader.Setter → Bool
  | .parameters _ => true
  | _ => false

/-! ## LCCollectionVec -/

/-- The member functions of LCCollectionVec that are meant to set one attribute: which getter belongs to the setter, and the value the getter is meant to return
afterwards, given what it returned before. -/
def colObjMeant : ColObj.Setter → Option (ColObj.Getter × (Val → Val))
  | .setTransient val => some (.getFlag, withBit 16 val)
  | .setDefault val => some (.getFlag, withBit 17 val)
  | .setSubset val => some (.getFlag, withBit 18 val)
  | .setFlag v => some (.getFlag, fun _ => .w32 v)
  | .addElement v => some (.getElements, appended (.ptrs [v]))
  | .vector v => some (.getElements, fun _ => .ptrs v)
  | _ => none

/-- The member functions of LCCollectionVec that do not look at the access mode. -/
def colObjUnchecked : ColObj.Setter → Bool
  | .setTransient _ => true
  | .setDefault _ => true
  | .setSubset _ => true
  | .setFlag _ => true
  | .vector _ => true
  | .parameters _ => true
  | _ => false

end Spec
