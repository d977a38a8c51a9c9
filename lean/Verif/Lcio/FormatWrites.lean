import Verif.Lcio.FormatReads
/-
Objects are written in the documented format, class by class.
-/
namespace Lcio
open Sio Spec

/-- Unfold what a handler writes. -/
syntax "writing" "[" Lean.Parser.Tactic.simpLemma,* "]" : tactic
macro_rules
  | `(tactic| writing [$ls,*]) => `(tactic|
    simp only [$ls,*, Ctx.bit, flat_append, List.append_assoc, flat_nil, flat_w32, flat_w64, flat_wPtr, flat_wTag, flat_each32, flat_each64, flat_wIf,
      flat_eachPtr, flat_w32s, flat_w64s, wIf_append, List.nil_append, wEach])

variable (c : Ctx) (addr : Nat) (l : List FRec) (p : Params) (sz : Nat × Nat × Nat)

theorem MCParticle.doc (o : MCParticle) (h : MCParticleOk o) :
    flat (encode 2015 Doc.MCParticle.nMC [docMCParticle c.std addr o, head .mcParticle c.flag p sz l]) = flat (o.write c addr) := by
  have h1 : (o.p.map c.std.narrow).length = 3 := by rw [List.length_map]; exact h.p
  have h2 : (o.pEndpoint.map c.std.narrow).length = 3 := by rw [List.length_map]; exact h.pEndpoint
  descr [Doc.MCParticle.nMC, Doc.MCParticle.nMC.nParent, docMCParticle, h.vertex, h.p, h.pEndpoint, h.endpoint, h.spin, h.colorFlow, Nat.reduceLT,
    decide_true, decide_false]
  writing [MCParticle.write, wFor_eq _ _ h.parents]

theorem SimCont.doc (s : List FRec) (hs : visible "flags" s = some (.word c.flag)) (o : SimCont) (h : o.stepPosition.length = 3) :
    flat (encode 2015 Doc.SimCalorimeterHit.nHits.nContributions (docSimCont o :: s)) = flat (o.write c) := by
  descr [Doc.SimCalorimeterHit.nHits.nContributions, docSimCont, hs, h, Nat.reduceLT, decide_true]
  writing [SimCont.write]

theorem SimCalHit.doc (o : SimCalHit) (h : SimCalHitOk o) :
    flat (encode 2015 Doc.SimCalorimeterHit.nHits [docSimCalHit addr o, head .simCalHit c.flag p sz l]) = flat (o.write c addr) := by
  descr [Doc.SimCalorimeterHit.nHits, docSimCalHit, h.position, Nat.reduceLT, decide_true, decide_false, Bool.or_false, Bool.false_or]
  writing [SimCalHit.write, wFor_eq _ _ h.conts]
  rw [flat_flatMap _ o.conts, flatMap_mem (fun x hx => SimCont.doc c _ (by descr [true_and]) x (h.step x hx)), ← flat_flatMap]

theorem RawCalHit.doc (o : RawCalHit) :
    flat (encode 2015 Doc.RawCalorimeterHit.nHits [docRawCalHit addr o, head .rawCalHit c.flag p sz l]) = flat (o.write c addr) := by
  descr [Doc.RawCalorimeterHit.nHits, docRawCalHit, Nat.reduceEqDiff, decide_false, Bool.false_or]
  writing [RawCalHit.write]

theorem CalHit.doc (hb : c.flag.getLsbD 28 = false) (o : CalHit) (h : o.position.length = 3) :
    flat (encode 2015 Doc.CalorimeterHit.nHits [docCalHit addr o, head .calHit c.flag p sz l]) = flat (o.write c addr) := by
  descr [Doc.CalorimeterHit.nHits, docCalHit, h, Nat.reduceLT, Nat.reduceEqDiff, decide_true, decide_false, Bool.false_or]
  writing [CalHit.write, hb, Bool.not_false, wIf_true]

theorem SimTrackerHit.doc (o : SimTrackerHit) (h : SimTrackerHitOk o) :
    flat (encode 2015 Doc.SimTrackerHit.n [docSimTrackerHit addr o, head .simTrackerHit c.flag p sz l]) = flat (o.write c addr) := by
  descr [Doc.SimTrackerHit.n, docSimTrackerHit, h.pos, h.p, Nat.reduceLT, decide_true]
  writing [SimTrackerHit.write]

theorem TPCHit.doc (o : TPCHit) (h : small o.raw.length) :
    flat (encode 2015 Doc.TPCHit.n [docTPCHit addr o, head .tpcHit c.flag p sz l]) = flat (o.write c addr) := by
  descr [Doc.TPCHit.n, Doc.TPCHit.n.nRawDataWords, docTPCHit, Nat.reduceLT, decide_true]
  writing [TPCHit.write, wFor_eq _ _ h]

theorem TrackerRawData.doc (o : TrackerRawData) :
    flat (encode 2015 Doc.TrackerRawData.n [docTrackerRawData addr o, head .trackerRawData c.flag p sz l]) = flat (o.write c addr) := by
  descr [Doc.TrackerRawData.n, docTrackerRawData]
  writing [TrackerRawData.write, wVec16]

theorem TrackerData.doc (o : TrackerData) :
    flat (encode 2015 Doc.TrackerData.n [docTrackerData addr o, head .trackerData c.flag p sz l]) = flat (o.write c addr) := by
  descr [Doc.TrackerData.n, Doc.TrackerData.n.nCharge, docTrackerData]
  writing [TrackerData.write, flat_wVec32]

theorem TrackerPulse.doc (o : TrackerPulse) (h : o.cov.length = 3) :
    flat (encode 2015 Doc.TrackerPulse.n [docTrackerPulse addr o, head .trackerPulse c.flag p sz l]) = flat (o.write c addr) := by
  descr [Doc.TrackerPulse.n, docTrackerPulse, h, Nat.reduceLT, decide_true]
  writing [TrackerPulse.write]

theorem TrackerHit.doc (o : TrackerHit) (h : TrackerHitOk o) :
    flat (encode 2015 Doc.TrackerHit.n [docTrackerHit addr o, head .trackerHit c.flag p sz l]) = flat (o.write c addr) := by
  descr [Doc.TrackerHit.n, Doc.TrackerHit.n.nRawHits, docTrackerHit, h.pos, h.cov, Nat.reduceLT, decide_true]
  writing [TrackerHit.write]

theorem TrackerHitPlane.doc (o : TrackerHitPlane) (h : TrackerHitPlaneOk o) :
    flat (encode 2015 Doc.TrackerHitPlane.n [docTrackerHitPlane addr o, head .trackerHitPlane c.flag p sz l]) = flat (o.write c addr) := by
  descr [Doc.TrackerHitPlane.n, Doc.TrackerHitPlane.n.nRawHits, docTrackerHitPlane, h.pos, h.u, h.v, Nat.reduceLT, decide_true]
  writing [TrackerHitPlane.write]

theorem TrackerHitZCylinder.doc (o : TrackerHitZCylinder) (h : TrackerHitZCylinderOk o) :
    flat (encode 2015 Doc.TrackerHitZCylinder.n [docTrackerHitZCylinder addr o, head .trackerHitZCylinder c.flag p sz l]) = flat (o.write c addr) := by
  descr [Doc.TrackerHitZCylinder.n, Doc.TrackerHitZCylinder.n.nRawHits, docTrackerHitZCylinder, h.pos, h.center, Nat.reduceLT, decide_true]
  writing [TrackerHitZCylinder.write]

theorem Track.doc (o : Track) (h : TrackOk o) :
    flat (encode 2015 Doc.Track.nTrack [docTrack addr o, head .track c.flag p sz l]) = flat (o.write c addr) := by
  have hds := docTrackState.eq_1 (o.states.headD {})
  descr [Doc.Track.nTrack, Doc.Track.nTrack.nHitNumbers, Doc.Track.nTrack.nTracks, Doc.Track.nTrack.n, docTrack, hds, Nat.reduceLT, decide_true]
  writing [Track.write, wFor_eq _ _ h.hitNumbers, wFor_eq _ _ h.tracks, wFor_eq _ _ h.hits]
  rw [flat_flatMap _ o.states, flatMap_mem (fun x hx => TrackState.doc 2015 _ x (h.cov x hx)), ← flat_flatMap]

theorem Cluster.doc (o : Cluster) (h : ClusterOk o) :
    flat (encode 2015 Doc.Cluster.nCluster [docCluster addr o, head .cluster c.flag p sz l]) = flat (o.write c addr) := by
  have hz : (o.hits.zip o.weights).length = o.hits.length := by rw [List.length_zip, h.weights, Nat.min_self]
  descr [Doc.Cluster.nCluster, Doc.Cluster.nCluster.nParams, Doc.Cluster.nCluster.nClusters, Doc.Cluster.nCluster.n, Doc.Cluster.nCluster.nEnergies, docCluster,
    h.position, h.posError, h.dirError, Nat.reduceLT, decide_true]
  writing [Cluster.write, wFor_eq _ _ h.pids, wFor_eq _ _ h.clusters, wFor_eq _ _ h.energies, small_count _ h.hits, List.take_length, writeHits_eq _ _ h.weights, hz]
  rw [flat_flatMap _ o.pids, flatMap_mem (fun x hx => Pid.docData 2015 _ (by descr [true_and]) x (h.params x hx)), ← flat_flatMap]

theorem RecoParticle.doc (o : RecoParticle) (h : RecoParticleOk o) :
    flat (encode 2015 Doc.ReconstructedParticle.nObject [docRecoParticle c.std addr o, head .recoParticle c.flag p sz l]) = flat (o.write c addr) := by
  have h1 : (o.momentum.map c.std.narrow).length = 3 := by rw [List.length_map]; exact h.momentum
  descr [Doc.ReconstructedParticle.nObject, Doc.ReconstructedParticle.nObject.nrecopart, Doc.ReconstructedParticle.nObject.ntrk,
    Doc.ReconstructedParticle.nObject.ncal, docRecoParticle, h.momentum, h.cov, h.reference, Nat.reduceLT, decide_true, decide_false]
  writing [RecoParticle.write, wFor_eq _ _ h.pids, wFor_eq _ _ h.particles, wFor_eq _ _ h.tracks, wFor_eq _ _ h.clusters]
  rw [flat_flatMap _ o.pids, flatMap_mem (fun x hx => Pid.docTagged 2015 (by omega) _ (by descr [true_and]) x (h.params x hx)), ← flat_flatMap]

theorem Vertex.doc (o : Vertex) (h : VertexOk o) :
    flat (encode 2015 Doc.Vertex.nVertex [docVertex c.algs addr { o with primary := if o.primary = 0 then 0 else 0x01000000 }, head .vertex c.flag p sz l]) =
    flat (o.write c addr) := by
  descr [Doc.Vertex.nVertex, Doc.Vertex.nVertex.npar, docVertex, h.pos, h.cov]
  writing [Vertex.write, wFor_eq _ _ h.params, flat_wBool, Vertex.isPrimary]
  by_cases h0 : o.primary = 0 <;> simp [h0]

theorem Relation.doc (o : Relation) :
    flat (encode 2015 Doc.LCRelation.nRelations [docRelation o, head .relation c.flag p sz l]) = flat (o.write c) := by
  descr [Doc.LCRelation.nRelations, docRelation]
  writing [Relation.write]

theorem floatVec_doc (a : List W32) (h : small a.length) :
    flat (encode 2015 Doc.LCFloatVec.nVectors [docVec .word addr a, head .floatVec c.flag p sz l]) = flat (vecWrite w32 addr a) := by
  descr [Doc.LCFloatVec.nVectors, Doc.LCFloatVec.nVectors.nElements, docVec, Nat.reduceLT, decide_true]
  writing [vecWrite, wFor_eq _ _ h]

theorem intVec_doc (a : List W32) (h : small a.length) :
    flat (encode 2015 Doc.LCIntVec.nVectors [docVec .word addr a, head .intVec c.flag p sz l]) = flat (vecWrite w32 addr a) := by
  descr [Doc.LCIntVec.nVectors, Doc.LCIntVec.nVectors.nElements, docVec, Nat.reduceLT, decide_true]
  writing [vecWrite, wFor_eq _ _ h]

theorem strVec_doc (a : List Str) (h : small a.length) :
    flat (encode 2015 Doc.LCStrVec.nVectors [docVec .text addr a, head .strVec c.flag p sz l]) = flat (vecWrite wStr addr a) := by
  descr [Doc.LCStrVec.nVectors, Doc.LCStrVec.nVectors.nElements, docVec, Nat.reduceLT, decide_true]
  writing [vecWrite, wFor_eq _ _ h]

theorem Generic.doc (o : Generic) (h : GenericOk o) (hf : c.fixed = c.flag.getLsbD 31)
    (hs : c.fixed = true → sz = (o.ints.length, o.floats.length, o.doubles.length))
    (hc : c.fixed = true → c.nInt = BitVec.ofNat 32 sz.1 ∧ c.nFloat = BitVec.ofNat 32 sz.2.1 ∧ c.nDouble = BitVec.ofNat 32 sz.2.2) :
    flat (encode 2015 Doc.LCGenericObject.nObject [docGeneric addr o, head .generic c.flag p sz l]) = flat (o.write c addr) := by
  cases h31 : c.flag.getLsbD 31
  · rw [h31] at hf
    descr [Doc.LCGenericObject.nObject, Doc.LCGenericObject.nObject.nInt, Doc.LCGenericObject.nObject.nFloat, Doc.LCGenericObject.nObject.nDouble, docGeneric, h31,
      and_false]
    writing [Generic.write, hf, Bool.not_false, wIf_true, Bool.false_eq_true, if_false, writeFirst_all _ _ h.ints, writeFirst_all _ _ h.floats,
      writeFirst_all _ _ h.doubles]
  · rw [h31] at hf
    obtain ⟨c1, c2, c3⟩ := hc hf
    have hs := hs hf
    subst hs
    descr [Doc.LCGenericObject.nObject, Doc.LCGenericObject.nObject.nInt, Doc.LCGenericObject.nObject.nFloat, Doc.LCGenericObject.nObject.nDouble, docGeneric, h31,
      true_and, repRows_count]
    writing [Generic.write, hf, Bool.not_true, wIf_false, if_true, c1, c2, c3, writeFirst_all _ _ h.ints, writeFirst_all _ _ h.floats,
      writeFirst_all _ _ h.doubles]

end Lcio
