import Verif.Spec.FormatData
import Verif.Spec.Objects
/-
How the names in cmake/lcio.xml.in go with the data of objects, collections, run headers and events. (C76, C77)

`docX addr o` are the fields for an object at address `addr`. The field `this` is its address, fields with a count contain what is repeated.
`seenX has f o` is the object that is there after reading a file that was made for `o`: what the file contains (`has name`), and the
defaults for everything else. As before `f a` is the place of the object that is loaded for the object at address `a`.
-/
namespace Spec
open Sio Lcio

/-- The number of a version in the document: `1000*major+minor`. -/
def docVersion (v : W32) : Nat := 1000 * (majorVersion v).toNat + (minorVersion v).toNat

/-- A field that is repeated. -/
def column {β : Type} (name : String) (val : β → FVal) (l : List β) : FVal := .rows (l.map fun x => [(name, val x)])

/-- A value that is read if it is there. -/
def given {α : Type} (there : Bool) (x default : α) : α := if there then x else default

/-! ## MCParticle -/

/-- Momenta and mass are stored as `float`. -/
def docMCParticle (std : Std Pid) (addr : Nat) (o : MCParticle) : FRec :=
  [("this", .ref addr), ("nParent", column "parent" .ref o.parents), ("PDG", .word o.pdg), ("generatorStatus", .word o.genStatus),
   ("simulatorStatus", .word o.simStatus), ("vertex", .dwords o.vertex), ("time", .word o.time), ("momentum", .words (o.p.map std.narrow)),
   ("mass", .word (std.narrow o.mass)), ("charge", .word o.charge), ("endpoint", .dwords o.endpoint),
   ("momentum2", .words (o.pEndpoint.map std.narrow)), ("spin", .words o.spin), ("colorflow", .words o.colorFlow)]

/-- Daughters are not stored. -/
def seenMCParticle (std : Std Pid) (has : String → Bool) (f : Nat → Nat) (o : MCParticle) : MCParticle :=
  { pdg := o.pdg, genStatus := o.genStatus, simStatus := o.simStatus, vertex := o.vertex,
    endpoint := given (has "endpoint") o.endpoint [0, 0, 0], pEndpoint := given (has "momentum2") (o.pEndpoint.map (viaFloat std)) [0, 0, 0],
    p := o.p.map (viaFloat std), mass := viaFloat std o.mass, charge := o.charge, time := given (has "time") o.time 0,
    parents := o.parents.map f, daughters := [], spin := given (has "spin") o.spin [0, 0, 0], colorFlow := given (has "colorflow") o.colorFlow [0, 0] }

/-! ## Calorimeter hits -/

def docSimCont (o : SimCont) : FRec :=
  [("MCParticle", .ref o.particle), ("energyContrib", .word o.energy), ("time", .word o.time), ("length", .word o.length), ("PDG", .word o.pdg),
   ("stepPosition", .words o.stepPosition)]

def docSimCalHit (addr : Nat) (o : SimCalHit) : FRec :=
  [("cellId0", .word o.cellID0), ("cellId1", .word o.cellID1), ("energy", .word o.energy), ("position", .words o.position),
   ("nContributions", .rows (o.conts.map docSimCont)), ("this", .ref addr)]

def seenSimCont (has : String → Bool) (f : Nat → Nat) (o : SimCont) : SimCont :=
  { particle := f o.particle, energy := o.energy, time := o.time, length := given (has "length") o.length 0, pdg := given (has "PDG") o.pdg 0,
    stepPosition := given (has "stepPosition") o.stepPosition [0, 0, 0] }

/-- `hasC` is for the contributions. -/
def seenSimCalHit (has hasC : String → Bool) (f : Nat → Nat) (o : SimCalHit) : SimCalHit :=
  { cellID0 := o.cellID0, cellID1 := given (has "cellId1") o.cellID1 0, energy := o.energy, position := given (has "position") o.position [0, 0, 0],
    conts := o.conts.map (seenSimCont hasC f) }

def docCalHit (addr : Nat) (o : CalHit) : FRec :=
  [("cellId0", .word o.cellID0), ("cellId1", .word o.cellID1), ("energy", .word o.energy), ("energyError", .word o.energyError), ("time", .word o.time),
   ("position", .words o.position), ("type", .word o.type), ("rawHit", .ref o.rawHit), ("this", .ref addr)]

def seenCalHit (has : String → Bool) (f : Nat → Nat) (o : CalHit) : CalHit :=
  { cellID0 := o.cellID0, cellID1 := given (has "cellId1") o.cellID1 0, energy := o.energy, energyError := given (has "energyError") o.energyError 0,
    time := given (has "time") o.time 0, position := given (has "position") o.position [0, 0, 0], type := given (has "type") o.type 0,
    rawHit := given (has "rawHit") (f o.rawHit) 0 }

def docRawCalHit (addr : Nat) (o : RawCalHit) : FRec :=
  [("cellId0", .word o.cellID0), ("cellId1", .word o.cellID1), ("amplitude", .word o.amplitude), ("timeStamp", .word o.timeStamp), ("this", .ref addr)]

def seenRawCalHit (has : String → Bool) (o : RawCalHit) : RawCalHit :=
  { cellID0 := o.cellID0, cellID1 := given (has "cellId1") o.cellID1 0, amplitude := o.amplitude, timeStamp := given (has "timeStamp") o.timeStamp 0 }

/-! ## Tracker hits -/

/-- `EDep` was called `dedx` once. -/
def docSimTrackerHit (addr : Nat) (o : SimTrackerHit) : FRec :=
  [("cellID0", .word o.cellID0), ("cellId1", .word o.cellID1), ("position", .dwords o.pos), ("EDep", .word o.eDep), ("dedx", .word o.eDep),
   ("time", .word o.time), ("MCParticle", .ref o.particle), ("momentum", .words o.p), ("pathLength", .word o.pathLength), ("Quality", .word o.quality),
   ("this", .ref addr)]

def seenSimTrackerHit (has : String → Bool) (f : Nat → Nat) (o : SimTrackerHit) : SimTrackerHit :=
  { cellID0 := o.cellID0, cellID1 := given (has "cellId1") o.cellID1 0, pos := o.pos, eDep := o.eDep, time := o.time, particle := f o.particle,
    p := given (has "momentum") o.p [0, 0, 0], pathLength := given (has "pathLength") o.pathLength 0, quality := given (has "Quality") o.quality 0 }

/-- There was a single raw hit once. -/
def docTrackerHit (addr : Nat) (o : TrackerHit) : FRec :=
  [("cellId0", .word o.cellID0), ("cellId1", .word o.cellID1), ("type", .word o.type), ("position", .dwords o.pos), ("covariance", .words o.cov),
   ("EDep", .word o.eDep), ("EDepError", .word o.eDepError), ("dedx", .word o.eDep), ("time", .word o.time), ("quality", .word o.quality),
   ("nRawHits", column "rawHit" .ref o.rawHits), ("rawHit", .ref (o.rawHits.headD 0)), ("this", .ref addr)]

def seenTrackerHit (has : String → Bool) (f : Nat → Nat) (o : TrackerHit) : TrackerHit :=
  { cellID0 := given (has "cellId0") o.cellID0 0, cellID1 := given (has "cellId1") o.cellID1 0, type := given (has "type") o.type 0, pos := o.pos,
    cov := o.cov, eDep := o.eDep, eDepError := given (has "EDepError") o.eDepError 0, time := o.time, quality := given (has "quality") o.quality 0,
    rawHits := given (has "nRawHits") (o.rawHits.map f) [f (o.rawHits.headD 0)] }

def docTrackerHitPlane (addr : Nat) (o : TrackerHitPlane) : FRec :=
  [("cellId0", .word o.cellID0), ("cellId1", .word o.cellID1), ("type", .word o.type), ("position", .dwords o.pos), ("u", .words o.u), ("v", .words o.v),
   ("dU", .word o.du), ("dV", .word o.dv), ("EDep", .word o.eDep), ("EDepError", .word o.eDepError), ("time", .word o.time), ("quality", .word o.quality),
   ("nRawHits", column "rawHit" .ref o.rawHits), ("this", .ref addr)]

def seenTrackerHitPlane (has : String → Bool) (f : Nat → Nat) (o : TrackerHitPlane) : TrackerHitPlane :=
  { o with cellID0 := given (has "cellId0") o.cellID0 0, cellID1 := given (has "cellId1") o.cellID1 0, rawHits := o.rawHits.map f }

def docTrackerHitZCylinder (addr : Nat) (o : TrackerHitZCylinder) : FRec :=
  [("cellId0", .word o.cellID0), ("cellId1", .word o.cellID1), ("type", .word o.type), ("position", .dwords o.pos), ("center", .words o.center),
   ("dRPhi", .word o.dRPhi), ("dZ", .word o.dZ), ("EDep", .word o.eDep), ("EDepError", .word o.eDepError), ("time", .word o.time),
   ("quality", .word o.quality), ("nRawHits", column "rawHit" .ref o.rawHits), ("this", .ref addr)]

def seenTrackerHitZCylinder (has : String → Bool) (f : Nat → Nat) (o : TrackerHitZCylinder) : TrackerHitZCylinder :=
  { o with cellID0 := given (has "cellId0") o.cellID0 0, cellID1 := given (has "cellId1") o.cellID1 0, rawHits := o.rawHits.map f }

def docTrackerRawData (addr : Nat) (o : TrackerRawData) : FRec :=
  [("cellID0", .word o.cellID0), ("cellID1", .word o.cellID1), ("time", .word o.time), ("nADC", .halves o.adc), ("this", .ref addr)]

def seenTrackerRawData (has : String → Bool) (o : TrackerRawData) : TrackerRawData := { o with cellID1 := given (has "cellID1") o.cellID1 0 }

def docTrackerData (addr : Nat) (o : TrackerData) : FRec :=
  [("cellID0", .word o.cellID0), ("cellID1", .word o.cellID1), ("time", .word o.time), ("nCharge", column "chargeValues" .word o.charge), ("this", .ref addr)]

def seenTrackerData (has : String → Bool) (o : TrackerData) : TrackerData := { o with cellID1 := given (has "cellID1") o.cellID1 0 }

def docTrackerPulse (addr : Nat) (o : TrackerPulse) : FRec :=
  [("cellID0", .word o.cellID0), ("cellID1", .word o.cellID1), ("time", .word o.time), ("charge", .word o.charge), ("covariance", .words o.cov),
   ("quality", .word o.quality), ("tpcCorrectedData", .ref o.corrData), ("this", .ref addr)]

def seenTrackerPulse (has : String → Bool) (f : Nat → Nat) (o : TrackerPulse) : TrackerPulse :=
  { o with cellID1 := given (has "cellID1") o.cellID1 0, cov := given (has "covariance") o.cov [0, 0, 0], corrData := f o.corrData }

def docTPCHit (addr : Nat) (o : TPCHit) : FRec :=
  [("cellID", .word o.cellID), ("time", .word o.time), ("charge", .word o.charge), ("quality", .word o.quality),
   ("nRawDataWords", column "rawDataWord" .word o.raw), ("this", .ref addr)]

def seenTPCHit (has : String → Bool) (o : TPCHit) : TPCHit := { o with raw := given (has "nRawDataWords") o.raw [] }

/-! ## Track, cluster, reconstructed particle, vertex -/

def docTrackState (s : TrackState) : FRec :=
  [("location", .word s.location), ("d0", .word s.d0), ("phi", .word s.phi), ("omega", .word s.omega), ("z0", .word s.z0), ("tanLambda", .word s.tanLambda),
   ("covMatrix", .words s.cov), ("referencePoint", .words s.reference)]

/-- There was a single track state once. -/
def docTrack (addr : Nat) (o : Track) : FRec :=
  [("type", .word o.type), ("nTrackStates", .rows (o.states.map docTrackState)), ("chi2", .word o.chi2), ("ndf", .word o.ndf), ("dEdx", .word o.dEdx),
   ("dEdxError", .word o.dEdxError), ("radiusOfInnermostHit", .word o.radius), ("nHitNumbers", column "subdetectorHitNumbers" .word o.hitNumbers),
   ("nTracks", column "Track" .ref o.tracks), ("n", column "TrackerHit" .ref o.hits), ("this", .ref addr)] ++ docTrackState (o.states.headD {})

def seenTrack (has : String → Bool) (f : Nat → Nat) (o : Track) : Track :=
  { o with tracks := o.tracks.map f, hits := given (has "n") (o.hits.map f) [],
           states := given (has "nTrackStates") o.states [{ o.states.headD {} with location := 0 }] }

def docPid (p : Pid) : FRec :=
  [("likelihood", .word p.likelihood), ("type", .word p.type), ("pdg", .word p.pdg), ("algorithmType", .word p.algorithmType),
   ("npar", column "parameter" .word p.params), ("pid", .ref p.addr)]

/-- In the old format there are six numbers for the shape (`shape`), and three numbers for the particle type, which nobody uses. -/
def docCluster (addr : Nat) (o : Cluster) : FRec :=
  [("type", .word o.type), ("energy", .word o.energy), ("energyError", .word o.energyError), ("position", .words o.position), ("errpos", .words o.posError),
   ("theta", .word o.theta), ("phi", .word o.phi), ("errdir", .words o.dirError), ("nParams", column "shape" .word o.shape),
   ("npid", .rows (o.pids.map docPid)), ("shape", .words o.shape), ("particletype", .words [0, 0, 0]), ("nClusters", column "Clusters" .ref o.clusters),
   ("n", .rows ((o.hits.zip o.weights).map fun x => [("CalorimeterHit", .ref x.1), ("Contribution", .word x.2)])),
   ("nEnergies", column "subdetectorEnergy" .word o.energies), ("this", .ref addr)]

def seenCluster (std : Std Pid) (has : String → Bool) (f : Nat → Nat) (o : Cluster) : Cluster :=
  { o with
    energyError := given (has "energyError") o.energyError 0
    pids := addedInTurn std (given (has "npid") (o.pids.map fun p => { p with addr := 0 }) [])
    clusters := o.clusters.map f
    hits := given (has "n") (o.hits.map f) []
    weights := given (has "n") o.weights [] }

/-- Momentum, energy and mass are stored as `float`. -/
def docRecoParticle (std : Std Pid) (addr : Nat) (o : RecoParticle) : FRec :=
  [("typeFlag", .word o.type), ("momentum", .words (o.momentum.map std.narrow)), ("energy", .word (std.narrow o.energy)), ("covariance", .words o.cov),
   ("mass", .word (std.narrow o.mass)), ("charge", .word o.charge), ("reference", .words o.reference), ("npid", .rows (o.pids.map docPid)),
   ("ParticleIDUsed", .ref o.pidUsed), ("goodnessOfPID", .word o.goodness), ("nrecopart", column "ReconstructedParticle" .ref o.particles),
   ("ntrk", column "Track" .ref o.tracks), ("ncal", column "Cluster" .ref o.clusters), ("startVertex", .ref o.startVertex), ("this", .ref addr)]

def seenRecoParticle (std : Std Pid) (has : String → Bool) (f : Nat → Nat) (ids : List Nat) (o : RecoParticle) : RecoParticle :=
  { o with
    momentum := o.momentum.map (viaFloat std)
    energy := viaFloat std o.energy
    mass := viaFloat std o.mass
    pids := addedInTurn std (List.zipWith (fun p id => { p with addr := id }) o.pids ids)
    pidUsed := f o.pidUsed
    particles := o.particles.map f
    tracks := o.tracks.map f
    clusters := o.clusters.map f
    startVertex := given (has "startVertex") (f o.startVertex) 0 }

/-- The type is a number: the place of the algorithm type in a list, which is a parameter of the collection. -/
def docVertex (algs : List Str) (addr : Nat) (o : Vertex) : FRec :=
  [("primary", .word o.primary), ("type", .word (BitVec.ofNat 32 (algs.findIdx (· == o.algorithmType)))), ("chi2", .word o.chi2),
   ("probability", .word o.probability), ("position", .words o.pos), ("covariance", .words o.cov), ("npar", column "parameter" .word o.params),
   ("associatedParticle", .ref o.particle), ("this", .ref addr)]

/-! ## Relations, vectors, generic objects -/

def docRelation (o : Relation) : FRec := [("LCObjectFrom", .ref o.from_), ("LCObjectTo", .ref o.to), ("weight", .word o.weight)]

def seenRelation (has : String → Bool) (f : Nat → Nat) (o : Relation) : Relation :=
  { from_ := f o.from_, to := f o.to, weight := given (has "weight") o.weight 0x3f800000 }

def docVec {β : Type} (val : β → FVal) (addr : Nat) (l : List β) : FRec := [("nElements", column "value" val l), ("this", .ref addr)]

def docGeneric (addr : Nat) (o : Generic) : FRec :=
  [("nInt", column "intValue" .word o.ints), ("nFloat", column "floatValue" .word o.floats), ("nDouble", column "doubleValue" .dword o.doubles),
   ("this", .ref addr)]

/-! ## Collections -/

/-- The description of the blocks for the classes. -/
def docBlock : Kind → Fmt
  | .mcParticle => Doc.MCParticle | .simCalHit => Doc.SimCalorimeterHit | .rawCalHit => Doc.RawCalorimeterHit | .calHit => Doc.CalorimeterHit
  | .simTrackerHit => Doc.SimTrackerHit | .tpcHit => Doc.TPCHit | .trackerRawData => Doc.TrackerRawData | .trackerData => Doc.TrackerData
  | .trackerPulse => Doc.TrackerPulse | .trackerHit => Doc.TrackerHit | .trackerHitPlane => Doc.TrackerHitPlane
  | .trackerHitZCylinder => Doc.TrackerHitZCylinder | .track => Doc.Track | .cluster => Doc.Cluster | .recoParticle => Doc.ReconstructedParticle
  | .relation => Doc.LCRelation | .vertex => Doc.Vertex | .strVec => Doc.LCStrVec | .floatVec => Doc.LCFloatVec | .intVec => Doc.LCIntVec
  | .generic => Doc.LCGenericObject

/-- The name of the number of objects in these blocks, and the description of one object. -/
def docRow : Kind → String × Fmt
  | .mcParticle => ("nMC", Doc.MCParticle.nMC) | .simCalHit => ("nHits", Doc.SimCalorimeterHit.nHits) | .rawCalHit => ("nHits", Doc.RawCalorimeterHit.nHits)
  | .calHit => ("nHits", Doc.CalorimeterHit.nHits) | .simTrackerHit => ("n", Doc.SimTrackerHit.n) | .tpcHit => ("n", Doc.TPCHit.n)
  | .trackerRawData => ("n", Doc.TrackerRawData.n) | .trackerData => ("n", Doc.TrackerData.n) | .trackerPulse => ("n", Doc.TrackerPulse.n)
  | .trackerHit => ("n", Doc.TrackerHit.n) | .trackerHitPlane => ("n", Doc.TrackerHitPlane.n) | .trackerHitZCylinder => ("n", Doc.TrackerHitZCylinder.n)
  | .track => ("nTrack", Doc.Track.nTrack) | .cluster => ("nCluster", Doc.Cluster.nCluster) | .recoParticle => ("nObject", Doc.ReconstructedParticle.nObject)
  | .relation => ("nRelations", Doc.LCRelation.nRelations) | .vertex => ("nVertex", Doc.Vertex.nVertex) | .strVec => ("nVectors", Doc.LCStrVec.nVectors)
  | .floatVec => ("nVectors", Doc.LCFloatVec.nVectors) | .intVec => ("nVectors", Doc.LCIntVec.nVectors) | .generic => ("nObject", Doc.LCGenericObject.nObject)

/-- The fields for an object. `algs` are the algorithm types of vertices. -/
def docObj (std : Std Pid) (algs : List Str) (addr : Nat) : Obj → FRec
  | .mcParticle o => docMCParticle std addr o
  | .simCalHit o => docSimCalHit addr o
  | .rawCalHit o => docRawCalHit addr o
  | .calHit o => docCalHit addr o
  | .simTrackerHit o => docSimTrackerHit addr o
  | .tpcHit o => docTPCHit addr o
  | .trackerRawData o => docTrackerRawData addr o
  | .trackerData o => docTrackerData addr o
  | .trackerPulse o => docTrackerPulse addr o
  | .trackerHit o => docTrackerHit addr o
  | .trackerHitPlane o => docTrackerHitPlane addr o
  | .trackerHitZCylinder o => docTrackerHitZCylinder addr o
  | .track o => docTrack addr o
  | .cluster o => docCluster addr o
  | .recoParticle o => docRecoParticle std addr o
  | .relation o => docRelation o
  | .vertex o => docVertex algs addr o
  | .strVec l => docVec .text addr l
  | .floatVec l => docVec .word addr l
  | .intVec l => docVec .word addr l
  | .generic o => docGeneric addr o

/-- The objects that are seen. `has` is for the fields of the object, `hasC` for those of contributions to simulated calorimeter hits. -/
def seenObj (std : Std Pid) (flag : W32) (has hasC : String → Bool) (f : Nat → Nat) (ids : List Nat) : Obj → Obj
  | .mcParticle o => .mcParticle (seenMCParticle std has f o)
  | .simCalHit o => .simCalHit (seenSimCalHit has hasC f o)
  | .rawCalHit o => .rawCalHit (seenRawCalHit has o)
  | .calHit o => .calHit (seenCalHit has f o)
  | .simTrackerHit o => .simTrackerHit (seenSimTrackerHit has f o)
  | .tpcHit o => .tpcHit (seenTPCHit has o)
  | .trackerRawData o => .trackerRawData (seenTrackerRawData has o)
  | .trackerData o => .trackerData (seenTrackerData has o)
  | .trackerPulse o => .trackerPulse (seenTrackerPulse has f o)
  | .trackerHit o => .trackerHit (seenTrackerHit has f o)
  | .trackerHitPlane o => .trackerHitPlane (seenTrackerHitPlane has f o)
  | .trackerHitZCylinder o => .trackerHitZCylinder (seenTrackerHitZCylinder has f o)
  | .track o => .track (seenTrack has f o)
  | .cluster o => .cluster (seenCluster std has f o)
  | .recoParticle o => .recoParticle (seenRecoParticle std has f ids o)
  | .relation o => .relation (seenRelation has f o)
  | .vertex o => .vertex { o with particle := f o.particle }
  | .strVec l => .strVec l
  | .floatVec l => .floatVec l
  | .intVec l => .intVec l
  | .generic o => .generic { ints := o.ints, floats := o.floats, doubles := o.doubles, fixed := flag.getLsbD 31 }

/-- Parameters of one type. -/
def docParams {α : Type} (val : α → FVal) (m : VecMap α) : FVal := .rows (m.map fun e => [("key", .text e.1), ("nVals", column "value" val e.2)])

/-- The fields with the parameters. -/
def docParameters (p : Params) : FRec :=
  [("nIntParameters", docParams .word p.ints), ("nFloatParameters", docParams .word p.floats), ("nStringParameters", docParams .text p.strs)]

/-- The algorithm types of the vertices in a collection are a parameter of it. -/
def docAlgs (k : Kind) (p : Params) : List Str := if k = .vertex then getVals p.strs vertexKey [] else []

/-- The fields at the beginning of a block: flag word, parameters, and the size of generic objects of fixed size. -/
def docHead (k : Kind) (flag : W32) (p : Params) (size : Nat × Nat × Nat) : FRec :=
  [("flags", .word flag), ("flag", .word flag)] ++ docParameters p ++
  if k = .generic ∧ flag.getLsbD 31 = true then
    [("nInt", .word (BitVec.ofNat 32 size.1)), ("nFloat", .word (BitVec.ofNat 32 size.2.1)), ("nDouble", .word (BitVec.ofNat 32 size.2.2))]
  else []

/-- The size of generic objects of fixed size: that of the first. -/
def docSize (es : List Elem) : Nat × Nat × Nat := match es with
  | ⟨_, some (.generic o)⟩ :: _ => (o.ints.length, o.floats.length, o.doubles.length)
  | _ => (0, 0, 0)

/-- The fields for an element of a collection. -/
def docElem (std : Std Pid) (algs : List Str) (e : Elem) : FRec := match e.obj with
  | some o => docObj std algs e.addr o
  | none => []

/-- The fields of the block for a collection. -/
def docOuter (std : Std Pid) (k : Kind) (c : Collection) : FRec :=
  docHead k c.flag c.params (docSize c.elems) ++ [((docRow k).1, .rows (c.elems.map (docElem std (docAlgs k c.params))))]

/-- The contents of the block for a collection in a file of version `v`: objects, or in a subset pointers. -/
def docCollection (std : Std Pid) (v : Nat) (k : Kind) (c : Collection) : List Item :=
  if c.flag.getLsbD 18 then
    encode v Doc.References [docHead k c.flag c.params (0, 0, 0) ++ [("nReferences", column "originalObject" (fun e => .ref e.addr) c.elems)]]
  else
    encode v (docBlock k) [docOuter std k c]

/-! ## Run headers, event headers, direct access -/

/-- The fields of a run header. -/
def docRunHeader (h : RunHeader) : FRec :=
  [("runNumber", .word h.run), ("detectorName", .text h.det), ("description", .text h.descr),
   ("nActiveSubdetectors", column "subdetectorName" .text h.subdets)] ++ docParameters h.params

/-- Names and types of collections. In a file the type of a subset has a postfix. -/
def docTypes (cs : List (Str × ColHead)) : List (Str × Str) :=
  cs.map fun c => (c.1, if c.2.flag.getLsbD 18 then c.2.type ++ str "_References" else c.2.type)

/-- The fields of an event header. `types` are names and types of the collections that are stored. -/
def docEventHeader (h : EventHeader) (types : List (Str × Str)) : FRec :=
  [("runNumber", .word h.run), ("eventNumber", .word h.evt), ("timeStamp", .dword h.time), ("detectorName", .text h.det),
   ("nBlockNames", .rows (types.map fun t => [("blockName", .text t.1), ("blockType", .text t.2)]))] ++ docParameters h.params

/-- The fields of a random access record. -/
def docRandomAccess (a : RandomAccess) (size : W32) : FRec :=
  [("runMin", .word a.minRE.run), ("eventMin", .word a.minRE.evt), ("runMax", .word a.maxRE.run), ("eventMax", .word a.maxRE.evt),
   ("nRunHeaders", .word a.nRun), ("nEvents", .word a.nEvt), ("recordsAreInOrder", .word a.inOrder), ("indexLocation", .dword a.indexLoc),
   ("prevLocation", .dword a.prevLoc), ("nextLocation", .dword a.nextLoc), ("firstRecordLocation", .dword a.firstLoc), ("recordSize", .word size)]

/-- The fields of an index of events and runs with their positions. Offsets have 32 bits. -/
def docIndex (control runMin : W32) (base : W64) (es : List (RunEvent × W64)) : FRec :=
  [("controlWord", .word control), ("runMin", .word runMin), ("baseOffset", .dword base),
   ("size", .rows (es.map fun e =>
     [("runOffset", .word (e.1.run - runMin)), ("eventNumber", .word e.1.evt), ("locationOffset", .word ((e.2 - base).setWidth 32))]))]

/-! ## What is written -/

/-- `isPrimary` of a vertex is written as one byte, but the description has a word with four. -/
def docStored : Obj → Obj
  | .vertex o => .vertex { o with primary := if o.primary = 0 then 0 else 0x01000000 }
  | o => o

/-- A collection as it is written. -/
def docWritten (std : Std Pid) (c : Collection) : Collection :=
  { c.written std with elems := (c.written std).elems.map fun e => { e with obj := e.obj.map docStored } }

/-- Collections for which document and code agree on what is written: calorimeter hits without bit 28 of the flag word (no object can be pointed at),
and subsets of generic objects without bit 31 (the size of the objects is fixed). -/
structure Described (std : Std Pid) (k : Kind) (c : Collection) : Prop where
  calHit : k = .calHit → c.flag.getLsbD 18 = false → c.flag.getLsbD 28 = false
  subset : k = .generic → c.flag.getLsbD 18 = true → (c.written std).flag.getLsbD 31 = false

/-! ## What is read -/

/-- A field is there for an element of a collection. -/
def present (std : Std Pid) (v : Nat) (k : Kind) (c : Collection) (e : Elem) (name : String) : Bool :=
  (docRow k).2.has v [docElem std (docAlgs k c.params) e, docOuter std k c] name

/-- A field is there for contributions to simulated calorimeter hits. -/
def presentCont (std : Std Pid) (v : Nat) (k : Kind) (c : Collection) (name : String) : Bool :=
  Doc.SimCalorimeterHit.nHits.nContributions.has v [[], [], docOuter std k c] name

/-- Document and code agree on the format of objects in files of version `v`, in collections with this flag word. -/
def docAgrees (v : Nat) (flag : W32) : Kind → Prop
  | .mcParticle => 9 ≤ v
  | .simCalHit => flag.getLsbD 28 = true → 2010 < v
  | .calHit => 1002 < v → flag.getLsbD 28 = false
  | .trackerHitPlane => 1011 < v
  | .trackerHitZCylinder => 1011 < v
  | .track => v < 1100 ∨ 2000 ≤ v
  | .recoParticle => 1002 < v
  | .vertex => 1001 < v
  | _ => True

/-- The format has the place for the object: six numbers for the shape of clusters in the oldest files; the algorithm types of vertices
are parameters of the collection; the size of generic objects is that of all. -/
def docFits (v : Nat) (flag : W32) (algs : List Str) (size : Nat × Nat × Nat) : Obj → Prop
  | .cluster o => v ≤ 1002 → o.shape.length = 6
  | .vertex o => o.algorithmType ∈ algs
  | .generic o => flag.getLsbD 31 = true → size = (o.ints.length, o.floats.length, o.doubles.length)
  | _ => True

/-- A collection that a file of version `v` can contain. -/
structure DocColOk (v : Nat) (k : Kind) (c : Collection) : Prop where
  kind : kindOf c.type = some k
  count : small c.elems.length
  access : c.params.readOnly = false
  params : ParamsOk c.params
  agrees : c.flag.getLsbD 18 = false → docAgrees v c.flag k
  objects : c.flag.getLsbD 18 = false → ∀ e ∈ c.elems, ∃ o, e.obj = some o ∧ ObjOk k o ∧ docFits v c.flag (docAlgs k c.params) (docSize c.elems) o
  subset : k = .generic → c.flag.getLsbD 18 = true → c.flag.getLsbD 31 = false

/-- What is loaded for an element of a collection: a pointer in a subset, otherwise a new object, which is the one that pointers are set to, if
there can be any. -/
def SeenElem (std : Std Pid) (v : Nat) (k : Kind) (c : Collection) (T : Nat → Nat) (e e' : Elem) : Prop :=
  if c.flag.getLsbD 18 then e' = ⟨T e.addr, none⟩
  else (∃ o, e.obj = some o ∧
      e'.obj = some (seenObj std c.flag (present std v k c e) (presentCont std v k c) T ((pidsOf o).map fun p => T p.addr) o)) ∧
    (present std v k c e "this" = true → e'.addr = T e.addr)

/-- What is loaded for a collection in a file of version `v`. Up to version 1.1 there are no parameters. -/
structure SeenCol (std : Std Pid) (v : Nat) (k : Kind) (T : Nat → Nat) (c c' : Collection) : Prop where
  type : c'.type = c.type
  flag : c'.flag = c.flag
  params : c'.params = if 1001 < v then c.params else {}
  elems : All2 (SeenElem std v k c T) c.elems c'.elems

/-- The addresses of the objects in a collection that can be pointed at. -/
def docTagged (std : Std Pid) (v : Nat) (k : Kind) (c : Collection) : List Nat :=
  if c.flag.getLsbD 18 then [] else
  c.elems.flatMap fun e => (match e.obj with | some o => (pidsOf o).map (·.addr) | none => []) ++ if present std v k c e "this" then [e.addr] else []

/-- The addresses of the objects in the collections of an event that can be pointed at. -/
def docAddresses (std : Std Pid) (v : Nat) (cs : List (Str × Collection)) : List Nat := cs.flatMap fun c => docTagged std v (kindD c.2) c.2

/-- Pointers to objects of the collections become pointers to distinct objects, all others become null. -/
structure DocPointers (std : Std Pid) (v : Nat) (cs : List (Str × Collection)) (T : Nat → Nat) : Prop where
  null : ∀ a, a ∉ docAddresses std v cs → T a = 0
  nonNull : ∀ a ∈ docAddresses std v cs, T a ≠ 0
  distinct : ∀ a ∈ docAddresses std v cs, ∀ b ∈ docAddresses std v cs, T a = T b → a = b

/-- The blocks of an event record in a file of version `v`, whose blocks have the version word `vers`. -/
def docBlocks (std : Std Pid) (vers : W32) (v : Nat) (cs : List (Str × Collection)) : List WBlock :=
  cs.map fun c => ⟨c.1, vers, docCollection std v (kindD c.2) c.2⟩

end Spec
