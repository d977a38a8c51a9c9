import Verif.Lcio.FormatLemmas
/-
Objects in the documented format are read, class by class.
-/
namespace Lcio
open Sio Spec

variable (c : Ctx) (φ : Nat → Nat) (is : List Item) (n : Nat) (rg : List (Nat × Nat)) (addr self : Nat) (vers : W32) (v : Nat) (l : List FRec)
  (p : Params) (sz : Nat × Nat × Nat)

theorem MCParticle.reads (hv : Vers vers v) (h9 : 9 ≤ v) (o : MCParticle) (h : MCParticleOk o) :
    (MCParticle.read c vers self).runF φ ⟨flat (encode v Doc.MCParticle.nMC [docMCParticle c.std addr o, head .mcParticle c.flag p sz l]) ++ is, n, rg⟩ =
    some (seenMCParticle c.std (Doc.MCParticle.nMC.has v [docMCParticle c.std addr o, head .mcParticle c.flag p sz l]) φ o,
      ⟨is, n, rg ++ if Doc.MCParticle.nMC.has v [docMCParticle c.std addr o, head .mcParticle c.flag p sz l] "this" then [(addr, self)] else []⟩) := by
  have h1 : (o.p.map c.std.narrow).length = 3 := by rw [List.length_map]; exact h.p
  have h2 : (o.pEndpoint.map c.std.narrow).length = 3 := by rw [List.length_map]; exact h.pEndpoint
  have e9 : decide (v < 9) = false := decide_eq_false (by omega)
  descr [Doc.MCParticle.nMC, Doc.MCParticle.nMC.nParent, docMCParticle, h.vertex, h.p, h.pEndpoint, h.endpoint, h.spin, h.colorFlow, e9, wIf_false, wIf_true]
  reading [MCParticle.read, hv.n1_2, hv.n1_51, hv.n2_6, runF_sizedPtr _ _ _ _ _ h.parents, runF_r64s _ _ _ _ _ _ h.vertex,
    runF_r32s _ _ _ _ _ _ h1, runF_if32s _ _ _ _ _ _ _ _ h2, runF_if64s _ _ _ _ _ _ _ _ h.endpoint, runF_if32s _ _ _ _ _ _ _ _ h.spin,
    runF_if32s _ _ _ _ _ _ _ _ h.colorFlow]
  fields [seenMCParticle, Doc.MCParticle.nMC, docMCParticle, e9]
  cases o.simStatus.getLsbD 31 <;> cases decide (2006 < v) <;> simp [List.map_map, viaFloat, zero3, zero2]

theorem SimCont.reads (hv : Vers vers v) (hl : c.flag.getLsbD 28 = true → 2010 < v) (s : List FRec) (hs : visible "flags" s = some (.word c.flag))
    (o : SimCont) (h : o.stepPosition.length = 3) :
    (SimCont.read c vers).runF φ ⟨flat (encode v Doc.SimCalorimeterHit.nHits.nContributions (docSimCont o :: s)) ++ is, n, rg⟩ =
    some (seenSimCont (Doc.SimCalorimeterHit.nHits.nContributions.has v ([] :: [] :: [head .simCalHit c.flag p sz l])) φ o, ⟨is, n, rg⟩) := by
  have e : (c.flag.getLsbD 28 && decide (2010 < v)) = c.flag.getLsbD 28 := by
    cases h28 : c.flag.getLsbD 28
    · rfl
    · simp [hl h28]
  descr [Doc.SimCalorimeterHit.nHits.nContributions, docSimCont, hs, h]
  reading [SimCont.read, hv.n1_51, hv.n2_10, e, runF_ifRepeat _ _ _ _ _ _ _ _ h]
  fields [seenSimCont, Doc.SimCalorimeterHit.nHits.nContributions]
  rfl

theorem SimCalHit.reads (hv : Vers vers v) (h8 : 8 ≤ v) (hl : c.flag.getLsbD 28 = true → 2010 < v) (o : SimCalHit) (h : SimCalHitOk o) :
    (SimCalHit.read c vers self).runF φ ⟨flat (encode v Doc.SimCalorimeterHit.nHits [docSimCalHit addr o, head .simCalHit c.flag p sz l]) ++ is, n, rg⟩ =
    some (seenSimCalHit (Doc.SimCalorimeterHit.nHits.has v [docSimCalHit addr o, head .simCalHit c.flag p sz l]) (Doc.SimCalorimeterHit.nHits.nContributions.has v [[], [], head .simCalHit c.flag p sz l]) φ o,
      ⟨is, n, rg ++ if Doc.SimCalorimeterHit.nHits.has v [docSimCalHit addr o, head .simCalHit c.flag p sz l] "this" then [(addr, self)] else []⟩) := by
  have e8 : decide (v < 9) = decide (v = 8) := by congr 1; apply propext; omega
  descr [Doc.SimCalorimeterHit.nHits, docSimCalHit, h.position, e8]
  reading [SimCalHit.read, hv.n1_0, hv.v08, runF_if32s _ _ _ _ _ _ _ _ h.position, Bool.or_comm, flat_flatMap]
  rw [runF_sized φ _ _ _ (SimCont.read c vers) _ (seenSimCont (Doc.SimCalorimeterHit.nHits.nContributions.has v ([] :: [] :: [head .simCalHit c.flag p sz l])) φ)
    o.conts h.conts (fun x hx is n rg => SimCont.reads c φ is n rg vers v l p sz hv hl _ (by descr [true_and]) x (h.step x hx))]
  reading [if_true]
  fields [seenSimCalHit, Doc.SimCalorimeterHit.nHits, docSimCalHit, e8, Bool.or_comm]
  rfl

theorem RawCalHit.reads (hv : Vers vers v) (o : RawCalHit) :
    (RawCalHit.read c vers self).runF φ ⟨flat (encode v Doc.RawCalorimeterHit.nHits [docRawCalHit addr o, head .rawCalHit c.flag p sz l]) ++ is, n, rg⟩ =
    some (seenRawCalHit (Doc.RawCalorimeterHit.nHits.has v [docRawCalHit addr o, head .rawCalHit c.flag p sz l]) o,
      ⟨is, n, rg ++ if Doc.RawCalorimeterHit.nHits.has v [docRawCalHit addr o, head .rawCalHit c.flag p sz l] "this" then [(addr, self)] else []⟩) := by
  descr [Doc.RawCalorimeterHit.nHits, docRawCalHit]
  reading [RawCalHit.read, hv.v08, Bool.or_comm]
  fields [seenRawCalHit, Doc.RawCalorimeterHit.nHits, docRawCalHit, Bool.or_comm]

theorem CalHit.reads (hv : Vers vers v) (hb : 1002 < v → c.flag.getLsbD 28 = false) (o : CalHit) (h : o.position.length = 3) :
    (CalHit.read c vers self).runF φ ⟨flat (encode v Doc.CalorimeterHit.nHits [docCalHit addr o, head .calHit c.flag p sz l]) ++ is, n, rg⟩ =
    some (seenCalHit (Doc.CalorimeterHit.nHits.has v [docCalHit addr o, head .calHit c.flag p sz l]) φ o,
      ⟨is, n, rg ++ if Doc.CalorimeterHit.nHits.has v [docCalHit addr o, head .calHit c.flag p sz l] "this" then [(addr, self)] else []⟩) := by
  descr [Doc.CalorimeterHit.nHits, docCalHit, h]
  fields [seenCalHit, Doc.CalorimeterHit.nHits, docCalHit]
  by_cases h2 : 1002 < v
  · have e2 : decide (1002 < v) = true := decide_eq_true h2
    reading [CalHit.read, hv.v08, hv.n1_2, hv.n1_9, Bool.or_comm, runF_if32s _ _ _ _ _ _ _ _ h, e2, hb h2, wIf_true, wIf_false, rIf_true, rIf_false,
      Bool.true_and, if_true, Bool.not_false, Bool.not_true, Bool.false_and, Bool.or_false]
    rfl
  · have e2 : decide (1002 < v) = false := decide_eq_false h2
    reading [CalHit.read, hv.v08, hv.n1_2, hv.n1_9, Bool.or_comm, runF_if32s _ _ _ _ _ _ _ _ h, e2, wIf_true, wIf_false, rIf_true, rIf_false,
      Bool.true_and, if_true, Bool.not_false, Bool.not_true, Bool.false_and, Bool.or_false, Bool.false_eq_true, if_false]
    rfl

theorem SimTrackerHit.reads (hv : Vers vers v) (o : SimTrackerHit) (h : SimTrackerHitOk o) :
    (SimTrackerHit.read c vers self).runF φ ⟨flat (encode v Doc.SimTrackerHit.n [docSimTrackerHit addr o, head .simTrackerHit c.flag p sz l]) ++ is, n, rg⟩ =
    some (seenSimTrackerHit (Doc.SimTrackerHit.n.has v [docSimTrackerHit addr o, head .simTrackerHit c.flag p sz l]) φ o,
      ⟨is, n, rg ++ if Doc.SimTrackerHit.n.has v [docSimTrackerHit addr o, head .simTrackerHit c.flag p sz l] "this" then [(addr, self)] else []⟩) := by
  descr [Doc.SimTrackerHit.n, docSimTrackerHit, h.pos, h.p, wIf_both (decide (1012 < v)) (w32 o.eDep)]
  reading [SimTrackerHit.read, hv.n1_0, hv.n1_6, hv.n1_51, hv.n2_7, runF_r64s _ _ _ _ _ _ h.pos, runF_if32s _ _ _ _ _ _ _ _ h.p]
  fields [seenSimTrackerHit, Doc.SimTrackerHit.n, docSimTrackerHit]
  rfl

theorem TPCHit.reads (hv : Vers vers v) (o : TPCHit) (h : small o.raw.length) :
    (TPCHit.read c vers self).runF φ ⟨flat (encode v Doc.TPCHit.n [docTPCHit addr o, head .tpcHit c.flag p sz l]) ++ is, n, rg⟩ =
    some (seenTPCHit (Doc.TPCHit.n.has v [docTPCHit addr o, head .tpcHit c.flag p sz l]) o,
      ⟨is, n, rg ++ if Doc.TPCHit.n.has v [docTPCHit addr o, head .tpcHit c.flag p sz l] "this" then [(addr, self)] else []⟩) := by
  descr [Doc.TPCHit.n, Doc.TPCHit.n.nRawDataWords, docTPCHit]
  fields [seenTPCHit, Doc.TPCHit.n, docTPCHit]
  by_cases h2 : 1002 < v
  · have e2 : decide (1002 < v) = true := decide_eq_true h2
    reading [TPCHit.read, hv.n1_2, runF_ifSized32 _ _ _ _ _ _ _ h, e2, wIf_true, wIf_false, Bool.true_and, if_true, Bool.not_true, Bool.false_and, Bool.or_false]
  · have e2 : decide (1002 < v) = false := decide_eq_false h2
    reading [TPCHit.read, hv.n1_2, runF_ifSized32 _ _ _ _ _ _ _ h, e2, wIf_true, wIf_false, Bool.true_and, Bool.not_false, Bool.false_and, Bool.false_or,
      Bool.false_eq_true, if_false]

theorem TrackerRawData.reads (o : TrackerRawData) (h : small o.adc.length) :
    (TrackerRawData.read c self).runF φ ⟨flat (encode v Doc.TrackerRawData.n [docTrackerRawData addr o, head .trackerRawData c.flag p sz l]) ++ is, n, rg⟩ =
    some (seenTrackerRawData (Doc.TrackerRawData.n.has v [docTrackerRawData addr o, head .trackerRawData c.flag p sz l]) o,
      ⟨is, n, rg ++ if Doc.TrackerRawData.n.has v [docTrackerRawData addr o, head .trackerRawData c.flag p sz l] "this" then [(addr, self)] else []⟩) := by
  descr [Doc.TrackerRawData.n, docTrackerRawData]
  rw [show ∀ x, w32 (BitVec.ofNat 32 o.adc.length) ++ ((if o.adc.isEmpty = true then [] else [Item.arr 2 (o.adc.map BitVec.toNat)]) ++ x) = wVec16 o.adc ++ x from
    fun x => (List.append_assoc ..).symm]
  reading [TrackerRawData.read, runF_rVec16 _ _ _ _ _ h]
  fields [seenTrackerRawData, Doc.TrackerRawData.n, docTrackerRawData]

theorem flat_wVec32 (vs : List W32) : flat (wVec32 vs) = w32 (BitVec.ofNat 32 vs.length) ++ vs.flatMap w32 := by
  unfold wVec32
  cases vs with
  | nil => rfl
  | cons x l => rw [flat_append, flat_w32]; congr 1; exact flat_w32s (x :: l)

theorem TrackerData.reads (o : TrackerData) (h : small o.charge.length) :
    (TrackerData.read c self).runF φ ⟨flat (encode v Doc.TrackerData.n [docTrackerData addr o, head .trackerData c.flag p sz l]) ++ is, n, rg⟩ =
    some (seenTrackerData (Doc.TrackerData.n.has v [docTrackerData addr o, head .trackerData c.flag p sz l]) o,
      ⟨is, n, rg ++ if Doc.TrackerData.n.has v [docTrackerData addr o, head .trackerData c.flag p sz l] "this" then [(addr, self)] else []⟩) := by
  have hr := fun is n rg => runF_rVec32 φ is n rg o.charge h
  simp only [flat_wVec32, List.append_assoc] at hr
  descr [Doc.TrackerData.n, Doc.TrackerData.n.nCharge, docTrackerData]
  reading [TrackerData.read, hr]
  fields [seenTrackerData, Doc.TrackerData.n, docTrackerData]

theorem TrackerPulse.reads (hv : Vers vers v) (o : TrackerPulse) (h : o.cov.length = 3) :
    (TrackerPulse.read c vers self).runF φ ⟨flat (encode v Doc.TrackerPulse.n [docTrackerPulse addr o, head .trackerPulse c.flag p sz l]) ++ is, n, rg⟩ =
    some (seenTrackerPulse (Doc.TrackerPulse.n.has v [docTrackerPulse addr o, head .trackerPulse c.flag p sz l]) φ o,
      ⟨is, n, rg ++ if Doc.TrackerPulse.n.has v [docTrackerPulse addr o, head .trackerPulse c.flag p sz l] "this" then [(addr, self)] else []⟩) := by
  descr [Doc.TrackerPulse.n, docTrackerPulse, h]
  reading [TrackerPulse.read, hv.n1_12, runF_if32s _ _ _ _ _ _ _ _ h]
  fields [seenTrackerPulse, Doc.TrackerPulse.n, docTrackerPulse]
  rfl

theorem TrackerHit.reads (hv : Vers vers v) (o : TrackerHit) (h : TrackerHitOk o) :
    (TrackerHit.read c vers self).runF φ ⟨flat (encode v Doc.TrackerHit.n [docTrackerHit addr o, head .trackerHit c.flag p sz l]) ++ is, n, rg⟩ =
    some (seenTrackerHit (Doc.TrackerHit.n.has v [docTrackerHit addr o, head .trackerHit c.flag p sz l]) φ o,
      ⟨is, n, rg ++ if Doc.TrackerHit.n.has v [docTrackerHit addr o, head .trackerHit c.flag p sz l] "this" then [(addr, self)] else []⟩) := by
  descr [Doc.TrackerHit.n, Doc.TrackerHit.n.nRawHits, docTrackerHit, h.pos, h.cov]
  fields [seenTrackerHit, Doc.TrackerHit.n, docTrackerHit]
  have hd : ∀ is n rg, (rRepeat 1 rPtr).runF φ ⟨wPtr (o.rawHits.headD 0) ++ is, n, rg⟩ = some ([φ (o.rawHits.headD 0)], ⟨is, n, rg⟩) := fun _ _ _ => rfl
  by_cases h2 : 1002 < v
  · have e2 : decide (1002 < v) = true := decide_eq_true h2
    by_cases h12 : 1012 < v
    · have e12 : decide (1012 < v) = true := decide_eq_true h12
      reading [TrackerHit.read, hv.n1_2, hv.n1_11, hv.n1_12, hv.n1_51, runF_r64s _ _ _ _ _ _ h.pos, runF_r32s _ _ _ _ _ _ h.cov, e2, e12, wIf_true, wIf_false,
        rIf_true, Bool.not_true, if_true, runF_sizedPtr _ _ _ _ _ h.rawHits]
    · have e12 : decide (1012 < v) = false := decide_eq_false h12
      reading [TrackerHit.read, hv.n1_2, hv.n1_11, hv.n1_12, hv.n1_51, runF_r64s _ _ _ _ _ _ h.pos, runF_r32s _ _ _ _ _ _ h.cov, e2, e12, wIf_true, wIf_false,
        rIf_true, rIf_false, Bool.not_true, Bool.not_false, Bool.false_eq_true, if_true, if_false, runF_sizedPtr _ _ _ _ _ h.rawHits]
  · have e2 : decide (1002 < v) = false := decide_eq_false h2
    have e11 : decide (1011 < v) = false := decide_eq_false (by omega)
    have e12 : decide (1012 < v) = false := decide_eq_false (by omega)
    have e51 : decide (1051 < v) = false := decide_eq_false (by omega)
    reading [TrackerHit.read, hv.n1_2, hv.n1_11, hv.n1_12, hv.n1_51, runF_r64s _ _ _ _ _ _ h.pos, runF_r32s _ _ _ _ _ _ h.cov, e2, e11, e12, e51, wIf_true,
      wIf_false, rIf_true, rIf_false, Bool.not_false, Bool.false_and, Bool.false_eq_true, if_true, if_false, hd]

theorem TrackerHitPlane.reads (hv : Vers vers v) (h11 : 1011 < v) (o : TrackerHitPlane) (h : TrackerHitPlaneOk o) :
    (TrackerHitPlane.read c vers self).runF φ ⟨flat (encode v Doc.TrackerHitPlane.n [docTrackerHitPlane addr o, head .trackerHitPlane c.flag p sz l]) ++ is, n, rg⟩ =
    some (seenTrackerHitPlane (Doc.TrackerHitPlane.n.has v [docTrackerHitPlane addr o, head .trackerHitPlane c.flag p sz l]) φ o,
      ⟨is, n, rg ++ if Doc.TrackerHitPlane.n.has v [docTrackerHitPlane addr o, head .trackerHitPlane c.flag p sz l] "this" then [(addr, self)] else []⟩) := by
  have e11 : decide (1011 < v) = true := decide_eq_true h11
  have e2 : decide (1002 < v) = true := decide_eq_true (by omega)
  descr [Doc.TrackerHitPlane.n, Doc.TrackerHitPlane.n.nRawHits, docTrackerHitPlane, h.pos, h.u, h.v, e11, e2, wIf_true, wIf_false, Bool.not_true]
  reading [TrackerHitPlane.read, hv.n1_51, runF_r64s _ _ _ _ _ _ h.pos, runF_r32s _ _ _ _ _ _ h.u, runF_r32s _ _ _ _ _ _ h.v, runF_sizedPtr _ _ _ _ _ h.rawHits]
  fields [seenTrackerHitPlane, Doc.TrackerHitPlane.n, docTrackerHitPlane, e11, e2]

theorem TrackerHitZCylinder.reads (hv : Vers vers v) (h11 : 1011 < v) (o : TrackerHitZCylinder) (h : TrackerHitZCylinderOk o) :
    (TrackerHitZCylinder.read c vers self).runF φ ⟨flat (encode v Doc.TrackerHitZCylinder.n [docTrackerHitZCylinder addr o, head .trackerHitZCylinder c.flag p sz l]) ++ is, n, rg⟩ =
    some (seenTrackerHitZCylinder (Doc.TrackerHitZCylinder.n.has v [docTrackerHitZCylinder addr o, head .trackerHitZCylinder c.flag p sz l]) φ o,
      ⟨is, n, rg ++ if Doc.TrackerHitZCylinder.n.has v [docTrackerHitZCylinder addr o, head .trackerHitZCylinder c.flag p sz l] "this" then [(addr, self)] else []⟩) := by
  have e11 : decide (1011 < v) = true := decide_eq_true h11
  have e2 : decide (1002 < v) = true := decide_eq_true (by omega)
  descr [Doc.TrackerHitZCylinder.n, Doc.TrackerHitZCylinder.n.nRawHits, docTrackerHitZCylinder, h.pos, h.center, e11, e2, wIf_true, wIf_false, Bool.not_true]
  reading [TrackerHitZCylinder.read, hv.n1_51, runF_r64s _ _ _ _ _ _ h.pos, runF_r32s _ _ _ _ _ _ h.center, runF_sizedPtr _ _ _ _ _ h.rawHits]
  fields [seenTrackerHitZCylinder, Doc.TrackerHitZCylinder.n, docTrackerHitZCylinder, e11, e2]

theorem TrackState.doc (s : List FRec) (x : TrackState) (h : x.cov.length = 15 ∧ x.reference.length = 3) :
    flat (encode v Doc.Track.nTrack.nTrackStates (docTrackState x :: s)) = flat (TrackState.write x) := by
  descr [Doc.Track.nTrack.nTrackStates, docTrackState, h.1, h.2]
  simp only [TrackState.write, flat_append, flat_w32s, flat_each32, List.append_assoc]

theorem readStates_congr (h : atLeast vers 2 0 = true) (m : Nat) (acc : List TrackState) : readStates vers m acc = readStates blockVersion m acc := by
  have e : TrackState.read vers = TrackState.read blockVersion := by
    simp only [TrackState.read, h, bv_2_0]
  induction m generalizing acc with
  | zero => rfl
  | succ m ih =>
    rw [readStates, readStates, e]
    congr 1
    funext s
    split
    · rfl
    · exact ih _

/-- A single track state without its location. -/
theorem readStates_old (h : atLeast vers 2 0 = false) (x : TrackState) (hx : x.cov.length = 15 ∧ x.reference.length = 3) :
    (readStates vers 1 []).runF φ ⟨w32 x.d0 ++ (w32 x.phi ++ (w32 x.omega ++ (w32 x.z0 ++ (w32 x.tanLambda ++ (x.cov.flatMap w32 ++
      (x.reference.flatMap w32 ++ is)))))), n, rg⟩ = some ([{ x with location := 0 }], ⟨is, n, rg⟩) := by
  reading [readStates, TrackState.read, h, rIf_false, runF_r32s _ _ _ _ _ _ hx.1, runF_r32s _ _ _ _ _ _ hx.2, addTrackState]
  rfl

theorem Track.reads (hv : Vers vers v) (ht : v < 1100 ∨ 2000 ≤ v) (o : Track) (h : TrackOk o) :
    (Track.read c vers self).runF φ ⟨flat (encode v Doc.Track.nTrack [docTrack addr o, head .track c.flag p sz l]) ++ is, n, rg⟩ =
    some (seenTrack (Doc.Track.nTrack.has v [docTrack addr o, head .track c.flag p sz l]) φ o,
      ⟨is, n, rg ++ if Doc.Track.nTrack.has v [docTrack addr o, head .track c.flag p sz l] "this" then [(addr, self)] else []⟩) := by
  have hd : (o.states.headD {}).cov.length = 15 ∧ (o.states.headD {}).reference.length = 3 := by
    cases ho : o.states with
    | nil => exact ⟨rfl, rfl⟩
    | cons x l => exact h.cov x (by rw [ho]; simp)
  rcases ht with ht | ht
  · have e9 : decide (1099 < v) = false := decide_eq_false (by omega)
    have e0 : decide (2000 ≤ v) = false := decide_eq_false (by omega)
    have ha : atLeast vers 2 0 = false := by rw [hv.a2_0, e0]
    generalize hx : o.states.headD {} = x at hd
    descr [Doc.Track.nTrack, Doc.Track.nTrack.nHitNumbers, Doc.Track.nTrack.nTracks, Doc.Track.nTrack.n, docTrack, docTrackState, hx, hd.1, hd.2, e9]
    reading [Track.read, ha, rIf_false, show loops 1 = 1 from rfl, readStates_old φ _ _ _ vers ha x hd, runF_sized32 _ _ _ _ _ h.hitNumbers,
      runF_sizedPtr _ _ _ _ _ h.tracks, runF_ifSizedPtr _ _ _ _ _ _ _ h.hits]
    fields [seenTrack, Doc.Track.nTrack, docTrack, docTrackState, hx, e9]
  · have e9 : decide (1099 < v) = true := decide_eq_true (by omega)
    have e0 : decide (2000 ≤ v) = true := decide_eq_true ht
    have ha : atLeast vers 2 0 = true := by rw [hv.a2_0, e0]
    have hs := fun is n rg => readStates_law φ is n rg o.states [] h.cov (by simpa using h.locations)
    simp only [List.nil_append] at hs
    have hds := docTrackState.eq_1 (o.states.headD {})
    descr [Doc.Track.nTrack, Doc.Track.nTrack.nHitNumbers, Doc.Track.nTrack.nTracks, Doc.Track.nTrack.n, docTrack, hds, e9]
    reading [Track.read, ha, rIf_true, small_count _ h.states, readStates_congr vers ha]
    rw [flat_flatMap _ o.states, flatMap_mem (fun x hx => TrackState.doc v _ x (h.cov x hx)), hs]
    reading [runF_sized32 _ _ _ _ _ h.hitNumbers, runF_sizedPtr _ _ _ _ _ h.tracks, runF_ifSizedPtr _ _ _ _ _ _ _ h.hits]
    fields [seenTrack, Doc.Track.nTrack, docTrack, docTrackState, e9]

theorem Pid.docData (s : List FRec) (hs : visible "npar" s = none) (o : Pid) (h : small o.params.length) :
    flat (encode v Doc.Cluster.nCluster.npid (docPid o :: s)) = flat (Pid.writeData o) := by
  descr [Doc.Cluster.nCluster.npid, Doc.Cluster.nCluster.npid.npar, docPid, hs]
  simp only [Pid.writeData, wFor_eq _ _ h, wEach, List.append_assoc]

theorem Cluster.hitsReads (hs : List Nat) (ws : List W32) (hl : small hs.length) (h : ws.length = hs.length) (b : Bool) :
    (rIf b (rSized (do let h ← rPtr; let w ← r32; return (h, w))) []).runF φ
      ⟨wIf b (w32 (BitVec.ofNat 32 (hs.zip ws).length)) ++ (wIf b (flat ((hs.zip ws).flatMap fun x => wPtr x.1 ++ w32 x.2)) ++ is), n, rg⟩ =
    some (if b then (hs.map φ).zip ws else [], ⟨is, n, rg⟩) := by
  cases b
  · rfl
  · have := Cluster.hitsLaw φ is n rg hs ws hl h
    rw [small_count _ hl, List.take_length, writeHits_eq _ _ h] at this
    have hz : (hs.zip ws).length = hs.length := by rw [List.length_zip, h, Nat.min_self]
    rw [hz]
    exact this

theorem Cluster.reads (hv : Vers vers v) (o : Cluster) (h : ClusterOk o) (hs : v ≤ 1002 → o.shape.length = 6) :
    (Cluster.read c vers self).runF φ ⟨flat (encode v Doc.Cluster.nCluster [docCluster addr o, head .cluster c.flag p sz l]) ++ is, n, rg⟩ =
    some (seenCluster c.std (Doc.Cluster.nCluster.has v [docCluster addr o, head .cluster c.flag p sz l]) φ o,
      ⟨is, n, rg ++ if Doc.Cluster.nCluster.has v [docCluster addr o, head .cluster c.flag p sz l] "this" then [(addr, self)] else []⟩) := by
  have hz : ((o.hits.map φ).zip o.weights).map (·.1) = o.hits.map φ := List.map_fst_zip (by rw [List.length_map, h.weights]; exact Nat.le_refl _)
  have hz2 : ((o.hits.map φ).zip o.weights).map (·.2) = o.weights := List.map_snd_zip (by rw [List.length_map, h.weights]; exact Nat.le_refl _)
  have hz3 : ((if c.flag.getLsbD 31 = true then (o.hits.map φ).zip o.weights else []).map (·.1)) = if c.flag.getLsbD 31 = true then o.hits.map φ else [] := by
    split
    · exact hz
    · rfl
  have hz4 : ((if c.flag.getLsbD 31 = true then (o.hits.map φ).zip o.weights else []).map (·.2)) = if c.flag.getLsbD 31 = true then o.weights else [] := by
    split
    · exact hz2
    · rfl
  by_cases h2 : 1002 < v
  · have e2 : decide (1002 < v) = true := decide_eq_true h2
    have hp := fun is n rg => runF_for φ is n rg Pid.readData (fun x => flat (Pid.writeData x)) (fun o => { o with addr := 0 }) o.pids h.pids
      (fun x hx is n rg => Pid.dataLaw φ is n rg x (h.params x hx))
    descr [Doc.Cluster.nCluster, Doc.Cluster.nCluster.nParams, Doc.Cluster.nCluster.nClusters, Doc.Cluster.nCluster.n, Doc.Cluster.nCluster.nEnergies, docCluster,
      h.position, h.posError, h.dirError, e2]
    reading [Cluster.read, hv.n1_2, hv.n1_51, e2, if_true, runF_r32s _ _ _ _ _ _ h.position, runF_r32s _ _ _ _ _ _ h.posError, runF_r32s _ _ _ _ _ _ h.dirError,
      runF_rCount _ _ _ _ _ h.shape, runF_r32s _ _ _ _ o.shape _ rfl]
    rw [flat_flatMap _ o.pids, flatMap_mem (fun x hx => Pid.docData v _ (by descr [true_and]) x (h.params x hx)), hp]
    reading [runF_sizedPtr _ _ _ _ _ h.clusters, Cluster.hitsReads _ _ _ _ _ _ h.hits h.weights, runF_sized32 _ _ _ _ _ h.energies, hz3, hz4]
    fields [seenCluster, Doc.Cluster.nCluster, docCluster, e2]
    rfl
  · have e2 : decide (1002 < v) = false := decide_eq_false h2
    have e51 : decide (1051 < v) = false := decide_eq_false (by omega)
    have h6 := hs (by omega)
    have hd : ∀ is n rg, (r32s 3).runF φ ⟨([0, 0, 0] : List W32).flatMap w32 ++ is, n, rg⟩ = some ([0, 0, 0], ⟨is, n, rg⟩) :=
      fun is n rg => runF_r32s φ is n rg [0, 0, 0] 3 rfl
    descr [Doc.Cluster.nCluster, Doc.Cluster.nCluster.nParams, Doc.Cluster.nCluster.nClusters, Doc.Cluster.nCluster.n, Doc.Cluster.nCluster.nEnergies, docCluster,
      h.position, h.posError, h.dirError, e2, h6, List.length_cons, List.length_nil, Nat.reduceAdd]
    reading [Cluster.read, hv.n1_2, hv.n1_51, e2, e51, wIf_false, rIf_false, Bool.false_eq_true, if_false, runF_r32s _ _ _ _ _ _ h.position,
      runF_r32s _ _ _ _ _ _ h.posError, runF_r32s _ _ _ _ _ _ h.dirError, runF_r32s _ _ _ _ o.shape _ h6, hd, runF_sizedPtr _ _ _ _ _ h.clusters,
      Cluster.hitsReads _ _ _ _ _ _ h.hits h.weights, runF_sized32 _ _ _ _ _ h.energies, hz3, hz4]
    fields [seenCluster, Doc.Cluster.nCluster, docCluster, e2, e51]
    rfl

theorem Pid.docTagged (h2 : 1002 < v) (s : List FRec) (hs : visible "npar" s = none) (o : Pid) (h : small o.params.length) :
    flat (encode v Doc.ReconstructedParticle.nObject.npid (docPid o :: s)) = flat (Pid.write o) := by
  have e2 : decide (1002 < v) = true := decide_eq_true h2
  descr [Doc.ReconstructedParticle.nObject.npid, Doc.ReconstructedParticle.nObject.npid.npar, docPid, hs, e2]
  simp only [Pid.write, Pid.writeData, wFor_eq _ _ h, wEach, List.append_assoc]

theorem RecoParticle.reads (hv : Vers vers v) (h2 : 1002 < v) (o : RecoParticle) (h : RecoParticleOk o) :
    (RecoParticle.read c vers self).runF φ
      ⟨flat (encode v Doc.ReconstructedParticle.nObject [docRecoParticle c.std addr o, head .recoParticle c.flag p sz l]) ++ is, n, rg⟩ =
    some (seenRecoParticle c.std (Doc.ReconstructedParticle.nObject.has v [docRecoParticle c.std addr o, head .recoParticle c.flag p sz l]) φ
        (List.range' n o.pids.length) o,
      ⟨is, n + o.pids.length, rg ++ (pidRegs n o.pids ++
        if Doc.ReconstructedParticle.nObject.has v [docRecoParticle c.std addr o, head .recoParticle c.flag p sz l] "this" then [(addr, self)] else [])⟩) := by
  have h1 : (o.momentum.map c.std.narrow).length = 3 := by rw [List.length_map]; exact h.momentum
  have e2 : decide (1002 < v) = true := decide_eq_true h2
  have e3 : decide (v < 1003) = false := decide_eq_false (by omega)
  have hp : ∀ is n rg, (rFor Pid.read).runF φ ⟨w32 (BitVec.ofNat 32 o.pids.length) ++ ((o.pids.flatMap fun x => flat (Pid.write x)) ++ is), n, rg⟩ =
      some (numberPids n o.pids, ⟨is, n + o.pids.length, rg ++ pidRegs n o.pids⟩) := by
    intro is n rg
    unfold rFor
    rw [runF_bind, runF_r32]
    simp only [Option.bind_some]
    rw [small_count _ h.pids]
    exact Pid.listLaw φ is n rg o.pids h.params
  descr [Doc.ReconstructedParticle.nObject, Doc.ReconstructedParticle.nObject.nrecopart, Doc.ReconstructedParticle.nObject.ntrk,
    Doc.ReconstructedParticle.nObject.ncal, docRecoParticle, h.momentum, h.cov, h.reference, e2, e3]
  reading [RecoParticle.read, hv.n1_2, hv.n1_7, e2, Bool.not_true, Bool.false_eq_true, if_false, runF_r32s _ _ _ _ _ _ h1, runF_r32s _ _ _ _ _ _ h.cov,
    runF_r32s _ _ _ _ _ _ h.reference]
  rw [flat_flatMap _ o.pids, flatMap_mem (fun x hx => Pid.docTagged v h2 _ (by descr [true_and]) x (h.params x hx)), hp]
  reading [runF_sizedPtr _ _ _ _ _ h.particles, runF_sizedPtr _ _ _ _ _ h.tracks, runF_sizedPtr _ _ _ _ _ h.clusters]
  fields [seenRecoParticle, Doc.ReconstructedParticle.nObject, docRecoParticle, e2, e3]
  simp only [List.map_map]
  rfl

theorem Vertex.reads (o : Vertex) (h : VertexOk o) (ha : small c.algs.length) (hm : o.algorithmType ∈ c.algs) :
    (Vertex.read c self).runF φ ⟨flat (encode v Doc.Vertex.nVertex [docVertex c.algs addr o, head .vertex c.flag p sz l]) ++ is, n, rg⟩ =
    some ({ o with particle := φ o.particle },
      ⟨is, n, rg ++ if Doc.Vertex.nVertex.has v [docVertex c.algs addr o, head .vertex c.flag p sz l] "this" then [(addr, self)] else []⟩) := by
  have hi : small (c.algs.findIdx (· == o.algorithmType)) := by
    have := List.findIdx_le_length (p := (· == o.algorithmType)) (xs := c.algs)
    unfold small at *; omega
  descr [Doc.Vertex.nVertex, Doc.Vertex.nVertex.npar, docVertex, h.pos, h.cov]
  reading [Vertex.read, runF_r32s _ _ _ _ _ _ h.pos, runF_r32s _ _ _ _ _ _ h.cov, runF_for32 _ _ _ _ _ h.params]
  rw [if_neg (len_pos _ hi), len_toNat _ hi, getD_findIdx _ _ hm]
  fields [Doc.Vertex.nVertex, docVertex]

theorem Relation.reads (o : Relation) :
    (Relation.read c).runF φ ⟨flat (encode v Doc.LCRelation.nRelations [docRelation o, head .relation c.flag p sz l]) ++ is, n, rg⟩ =
    some (seenRelation (Doc.LCRelation.nRelations.has v [docRelation o, head .relation c.flag p sz l]) φ o, ⟨is, n, rg⟩) := by
  descr [Doc.LCRelation.nRelations, docRelation]
  reading [Relation.read]
  fields [seenRelation, Doc.LCRelation.nRelations, docRelation]

theorem floatVec_reads (hv : Vers vers v) (a : List W32) (h : small a.length) :
    (vecRead r32 vers self).runF φ ⟨flat (encode v Doc.LCFloatVec.nVectors [docVec .word addr a, head .floatVec c.flag p sz l]) ++ is, n, rg⟩ =
    some (a, ⟨is, n, rg ++ if Doc.LCFloatVec.nVectors.has v [docVec .word addr a, head .floatVec c.flag p sz l] "this" then [(addr, self)] else []⟩) := by
  descr [Doc.LCFloatVec.nVectors, Doc.LCFloatVec.nVectors.nElements, docVec]
  reading [vecRead, hv.n1_2, runF_sized32 _ _ _ _ _ h]
  fields [Doc.LCFloatVec.nVectors, docVec]

theorem intVec_reads (hv : Vers vers v) (a : List W32) (h : small a.length) :
    (vecRead r32 vers self).runF φ ⟨flat (encode v Doc.LCIntVec.nVectors [docVec .word addr a, head .intVec c.flag p sz l]) ++ is, n, rg⟩ =
    some (a, ⟨is, n, rg ++ if Doc.LCIntVec.nVectors.has v [docVec .word addr a, head .intVec c.flag p sz l] "this" then [(addr, self)] else []⟩) := by
  descr [Doc.LCIntVec.nVectors, Doc.LCIntVec.nVectors.nElements, docVec]
  reading [vecRead, hv.n1_2, runF_sized32 _ _ _ _ _ h]
  fields [Doc.LCIntVec.nVectors, docVec]

theorem strVec_reads (hv : Vers vers v) (a : List Str) (h : small a.length) (hs : ∀ s ∈ a, small s.length) :
    (vecRead rStr vers self).runF φ ⟨flat (encode v Doc.LCStrVec.nVectors [docVec .text addr a, head .strVec c.flag p sz l]) ++ is, n, rg⟩ =
    some (a, ⟨is, n, rg ++ if Doc.LCStrVec.nVectors.has v [docVec .text addr a, head .strVec c.flag p sz l] "this" then [(addr, self)] else []⟩) := by
  have := fun is n rg => runF_sized φ is n rg rStr (fun s => flat (wStr s)) id a h (fun x hx is n rg => runF_rStr φ is n rg x (hs x hx))
  simp only [List.map_id] at this
  descr [Doc.LCStrVec.nVectors, Doc.LCStrVec.nVectors.nElements, docVec]
  reading [vecRead, hv.n1_2, flat_flatMap, this]
  fields [Doc.LCStrVec.nVectors, docVec]

theorem Generic.reads (o : Generic) (h : GenericOk o) (hf : c.fixed = c.flag.getLsbD 31)
    (hs : c.fixed = true → sz = (o.ints.length, o.floats.length, o.doubles.length))
    (hc : c.fixed = true → c.nInt = BitVec.ofNat 32 sz.1 ∧ c.nFloat = BitVec.ofNat 32 sz.2.1 ∧ c.nDouble = BitVec.ofNat 32 sz.2.2) :
    (Generic.read c self).runF φ ⟨flat (encode v Doc.LCGenericObject.nObject [docGeneric addr o, head .generic c.flag p sz l]) ++ is, n, rg⟩ =
    some ({ ints := o.ints, floats := o.floats, doubles := o.doubles, fixed := c.flag.getLsbD 31 },
      ⟨is, n, rg ++ if Doc.LCGenericObject.nObject.has v [docGeneric addr o, head .generic c.flag p sz l] "this" then [(addr, self)] else []⟩) := by
  cases h31 : c.flag.getLsbD 31
  · rw [h31] at hf
    descr [Doc.LCGenericObject.nObject, Doc.LCGenericObject.nObject.nInt, Doc.LCGenericObject.nObject.nFloat, Doc.LCGenericObject.nObject.nDouble, docGeneric, h31,
      and_false]
    reading [Generic.read, hf, Bool.not_false, rIf_true]
    rw [if_neg (by rintro (h' | h' | h') <;> exact len_pos _ (by first | exact h.ints | exact h.floats | exact h.doubles) h')]
    reading [len_toNat _ h.ints, len_toNat _ h.floats, len_toNat _ h.doubles, runF_r32s _ _ _ _ o.ints _ rfl, runF_r32s _ _ _ _ o.floats _ rfl,
      runF_r64s _ _ _ _ o.doubles _ rfl]
    fields [Doc.LCGenericObject.nObject, docGeneric]
  · rw [h31] at hf
    obtain ⟨c1, c2, c3⟩ := hc hf
    have hs := hs hf
    subst hs
    descr [Doc.LCGenericObject.nObject, Doc.LCGenericObject.nObject.nInt, Doc.LCGenericObject.nObject.nFloat, Doc.LCGenericObject.nObject.nDouble, docGeneric, h31,
      true_and, repRows_count]
    reading [Generic.read, hf, Bool.not_true, rIf_false, c1, c2, c3]
    rw [if_neg (by rintro (h' | h' | h') <;> exact len_pos _ (by first | exact h.ints | exact h.floats | exact h.doubles) h')]
    reading [len_toNat _ h.ints, len_toNat _ h.floats, len_toNat _ h.doubles, runF_r32s _ _ _ _ o.ints _ rfl, runF_r32s _ _ _ _ o.floats _ rfl,
      runF_r64s _ _ _ _ o.doubles _ rfl]
    fields [Doc.LCGenericObject.nObject, docGeneric]

end Lcio
