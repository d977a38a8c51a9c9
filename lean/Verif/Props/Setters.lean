import Verif.Lcio.SetterLemmas
import Verif.Lcio.CollectionLemmas
import Verif.Lcio.Float
/-
C64: a setter is read back by its getter and changes nothing else.
-/
namespace Props
open Sio Lcio Spec

/-- `MCParticleImpl`. Missing: `setEndpoint`, which also changes the simulator status, see `C64_endpoint`. -/
theorem C64_mCParticle_partial (std : Std Pid) (s : MCParticle.Setter) (m : MCParticle.Getter × (Val → Val)) (h : mCParticleMeant std s = some m) (u : mCParticleUsable s)
    (o : MCParticle) :
    SetsOne (MCParticle.change std) MCParticle.get s m o := by
  cases s <;> simp only [mCParticleMeant, Option.some.injEq, reduceCtorEq] at h
  all_goals subst h
  all_goals setter_case MCParticle.change mCParticleUsable u

/-- `SimCalorimeterHitImpl`. -/
theorem C64_simCalHit (s : SimCalHit.Setter) (m : SimCalHit.Getter × (Val → Val)) (h : simCalHitMeant s = some m) (u : simCalHitUsable s)
    (o : SimCalHit) :
    SetsOne SimCalHit.change SimCalHit.get s m o := by
  cases s <;> simp only [simCalHitMeant, Option.some.injEq, reduceCtorEq] at h
  all_goals subst h
  all_goals setter_case SimCalHit.change simCalHitUsable u

/-- `CalorimeterHitImpl`. -/
theorem C64_calHit (s : CalHit.Setter) (m : CalHit.Getter × (Val → Val)) (h : calHitMeant s = some m) (u : calHitUsable s) (o : CalHit) :
    SetsOne CalHit.change CalHit.get s m o := by
  cases s <;> simp only [calHitMeant, Option.some.injEq] at h
  all_goals subst h
  all_goals setter_case CalHit.change calHitUsable u

/-- `RawCalorimeterHitImpl`. -/
theorem C64_rawCalHit (s : RawCalHit.Setter) (m : RawCalHit.Getter × (Val → Val)) (h : rawCalHitMeant s = some m) (o : RawCalHit) :
    SetsOne RawCalHit.change RawCalHit.get s m o := by
  cases s <;> simp only [rawCalHitMeant, Option.some.injEq] at h
  all_goals subst h
  all_goals setter_case RawCalHit.change

/-- `SimTrackerHitImpl`. -/
theorem C64_simTrackerHit (s : SimTrackerHit.Setter) (m : SimTrackerHit.Getter × (Val → Val)) (h : simTrackerHitMeant s = some m) (u : simTrackerHitUsable s)
    (o : SimTrackerHit) :
    SetsOne SimTrackerHit.change SimTrackerHit.get s m o := by
  cases s <;> simp only [simTrackerHitMeant, Option.some.injEq] at h
  all_goals subst h
  all_goals setter_case SimTrackerHit.change simTrackerHitUsable u

/-- `TrackerHitImpl`. -/
theorem C64_trackerHit (s : TrackerHit.Setter) (m : TrackerHit.Getter × (Val → Val)) (h : trackerHitMeant s = some m) (u : trackerHitUsable s)
    (o : TrackerHit) :
    SetsOne TrackerHit.change TrackerHit.get s m o := by
  cases s <;> simp only [trackerHitMeant, Option.some.injEq] at h
  all_goals subst h
  all_goals setter_case TrackerHit.change trackerHitUsable u

/-- `TrackerHitPlaneImpl`. -/
theorem C64_trackerHitPlane (s : TrackerHitPlane.Setter) (m : TrackerHitPlane.Getter × (Val → Val)) (h : trackerHitPlaneMeant s = some m) (u : trackerHitPlaneUsable s)
    (o : TrackerHitPlane) :
    SetsOne TrackerHitPlane.change TrackerHitPlane.get s m o := by
  cases s <;> simp only [trackerHitPlaneMeant, Option.some.injEq] at h
  all_goals subst h
  all_goals setter_case TrackerHitPlane.change trackerHitPlaneUsable u

/-- `TrackerHitZCylinderImpl`. -/
theorem C64_trackerHitZCylinder (s : TrackerHitZCylinder.Setter) (m : TrackerHitZCylinder.Getter × (Val → Val)) (h : trackerHitZCylinderMeant s = some m) (u : trackerHitZCylinderUsable s)
    (o : TrackerHitZCylinder) :
    SetsOne TrackerHitZCylinder.change TrackerHitZCylinder.get s m o := by
  cases s <;> simp only [trackerHitZCylinderMeant, Option.some.injEq] at h
  all_goals subst h
  all_goals setter_case TrackerHitZCylinder.change trackerHitZCylinderUsable u

/-- `TrackerRawDataImpl`. -/
theorem C64_trackerRawData (s : TrackerRawData.Setter) (m : TrackerRawData.Getter × (Val → Val)) (h : trackerRawDataMeant s = some m)
    (o : TrackerRawData) :
    SetsOne TrackerRawData.change TrackerRawData.get s m o := by
  cases s <;> simp only [trackerRawDataMeant, Option.some.injEq, reduceCtorEq] at h
  all_goals subst h
  all_goals setter_case TrackerRawData.change

/-- `TrackerDataImpl`. -/
theorem C64_trackerData (s : TrackerData.Setter) (m : TrackerData.Getter × (Val → Val)) (h : trackerDataMeant s = some m) (o : TrackerData) :
    SetsOne TrackerData.change TrackerData.get s m o := by
  cases s <;> simp only [trackerDataMeant, Option.some.injEq, reduceCtorEq] at h
  all_goals subst h
  all_goals setter_case TrackerData.change

/-- `TrackerPulseImpl`. -/
theorem C64_trackerPulse (s : TrackerPulse.Setter) (m : TrackerPulse.Getter × (Val → Val)) (h : trackerPulseMeant s = some m) (u : trackerPulseUsable s)
    (o : TrackerPulse) :
    SetsOne TrackerPulse.change TrackerPulse.get s m o := by
  cases s <;> simp only [trackerPulseMeant, Option.some.injEq] at h
  all_goals subst h
  all_goals setter_case TrackerPulse.change trackerPulseUsable u

/-- `TPCHitImpl`. -/
theorem C64_tPCHit (s : TPCHit.Setter) (m : TPCHit.Getter × (Val → Val)) (h : tPCHitMeant s = some m) (o : TPCHit) :
    SetsOne TPCHit.change TPCHit.get s m o := by
  cases s <;> simp only [tPCHitMeant, Option.some.injEq] at h
  all_goals subst h
  all_goals setter_case TPCHit.change

/-- `TrackStateImpl`. -/
theorem C64_trackState (s : TrackState.Setter) (m : TrackState.Getter × (Val → Val)) (h : trackStateMeant s = some m) (u : trackStateUsable s)
    (o : TrackState) :
    SetsOne TrackState.change TrackState.get s m o := by
  cases s <;> simp only [trackStateMeant, Option.some.injEq] at h
  all_goals subst h
  all_goals setter_case TrackState.change trackStateUsable u

/-- `ClusterImpl`. Missing: `setShape`, see `C64_fails_for_shape`; `addHit` and `addParticleID` are not setters of one attribute. -/
theorem C64_cluster_partial (std : Std Pid) (s : Cluster.Setter) (m : Cluster.Getter × (Val → Val)) (h : clusterMeant s = some m) (u : clusterUsable s) (hs : ∀ v, s ≠ .setShape v)
    (o : Cluster) :
    SetsOne (Cluster.change std) Cluster.get s m o := by
  cases s <;> simp only [clusterMeant, Option.some.injEq, reduceCtorEq] at h
  all_goals subst h
  all_goals first | setter_case Cluster.change clusterUsable u | exact absurd rfl (hs _)

/-- `ParticleIDImpl`. -/
theorem C64_pid (s : Pid.Setter) (m : Pid.Getter × (Val → Val)) (h : pidMeant s = some m) (o : Pid) :
    SetsOne Pid.change Pid.get s m o := by
  cases s <;> simp only [pidMeant, Option.some.injEq] at h
  all_goals subst h
  all_goals setter_case Pid.change

/-- `ReconstructedParticleImpl`. -/
theorem C64_recoParticle (std : Std Pid) (s : RecoParticle.Setter) (m : RecoParticle.Getter × (Val → Val)) (h : recoParticleMeant std s = some m) (u : recoParticleUsable s)
    (o : RecoParticle) :
    SetsOne (RecoParticle.change std) RecoParticle.get s m o := by
  cases s <;> simp only [recoParticleMeant, Option.some.injEq, reduceCtorEq] at h
  all_goals subst h
  all_goals setter_case RecoParticle.change recoParticleUsable u

/-- `VertexImpl`. -/
theorem C64_vertex (s : Vertex.Setter) (m : Vertex.Getter × (Val → Val)) (h : vertexMeant s = some m) (u : vertexUsable s) (o : Vertex) :
    SetsOne Vertex.change Vertex.get s m o := by
  cases s <;> simp only [vertexMeant, Option.some.injEq] at h
  all_goals subst h
  case setPrimary v =>
    refine ⟨_, rfl, by cases v <;> rfl, fun g hg => ?_⟩
    cases g <;> first | rfl | exact absurd rfl hg
  all_goals setter_case Vertex.change vertexUsable u

/-- `LCRelationImpl`. -/
theorem C64_relation (s : Relation.Setter) (m : Relation.Getter × (Val → Val)) (h : relationMeant s = some m) (o : Relation) :
    SetsOne Relation.change Relation.get s m o := by
  cases s <;> simp only [relationMeant, Option.some.injEq] at h
  all_goals subst h
  all_goals setter_case Relation.change

/-- `LCRunHeaderImpl`. -/
theorem C64_runHeader (s : RunHeader.Setter) (m : RunHeader.Getter × (Val → Val)) (h : runHeaderMeant s = some m) (o : RunHeader) :
    SetsOne RunHeader.change RunHeader.get s m o := by
  cases s <;> simp only [runHeaderMeant, Option.some.injEq, reduceCtorEq] at h
  all_goals subst h
  all_goals setter_case RunHeader.change

/-- `LCEventImpl`. Missing: `setWeight`, see `C64_weight_partial`. -/
theorem C64_eventHeader_partial (std : Std Pid) (s : EventHeader.Setter) (m : EventHeader.Getter × (Val → Val)) (h : eventHeaderMeant s = some m)
    (o : EventHeader) :
    SetsOne (EventHeader.change std) EventHeader.get s m o := by
  cases s <;> simp only [eventHeaderMeant, Option.some.injEq, reduceCtorEq] at h
  all_goals subst h
  all_goals setter_case EventHeader.change

/-- `LCCollectionVec`. -/
theorem C64_colObj (s : ColObj.Setter) (m : ColObj.Getter × (Val → Val)) (h : colObjMeant s = some m) (o : ColObj) :
    SetsOne ColObj.change ColObj.get s m o := by
  cases s <;> simp only [colObjMeant, Option.some.injEq, reduceCtorEq] at h
  all_goals subst h
  all_goals setter_case ColObj.change

/-- `TrackImpl`. Missing: the setters of track parameters for tracks with more than one track state, see `C64_fails_for_track_states`. -/
theorem C64_track_partial (s : Track.Setter) (m : Track.Getter × (Val → Val)) (h : trackMeant s = some m) (u : trackUsable s) (o : Track)
    (ho : o.states.length ≤ 1) : SetsOne Track.change Track.get s m o := by
  obtain ⟨t, c2, n, d, de, r, hn, tr, hi, st⟩ := o
  rcases st with _ | ⟨s0, _ | ⟨s1, st⟩⟩
  · cases s <;> simp only [trackMeant, Option.some.injEq, reduceCtorEq] at h
    all_goals subst h
    all_goals first | setter_case Track.change trackUsable u |
      (simp only [trackUsable] at u; simp only [SetsOne, Track.change, Track.onFirst, TrackState.change, copyArray_ok u, Bool.false_eq_true, if_false]; setter_close)
  · cases s <;> simp only [trackMeant, Option.some.injEq, reduceCtorEq] at h
    all_goals subst h
    all_goals first | setter_case Track.change trackUsable u |
      (simp only [trackUsable] at u; simp only [SetsOne, Track.change, Track.onFirst, TrackState.change, copyArray_ok u, Bool.false_eq_true, if_false]; setter_close)
  · simp at ho
/-- Conversions, for examples in which they do not matter. -/
def stdZero : Std Pid := { narrow := fun _ => 0, widen := fun _ => 0, sort := id }

/-! ## LCGenericObject -/

theorem setAt_ok {α : Type} (zero : α) (fixed : Bool) (l : List α) (i : W32) (v : α) (h : i.toNat < l.length ∨ (fixed = false ∧ i.toNat + 1 < 2 ^ 32)) :
    ∃ l', Generic.setAt zero fixed l i v = .ok l' ∧ l'.length = max l.length (i.toNat + 1) ∧
      ∀ j : Nat, l'[j]? = if j = i.toNat then some v else if j < l.length then l[j]? else if j < i.toNat then some zero else none := by
  unfold Generic.setAt
  by_cases hl : i.toNat < l.length
  · have h1 : ¬(l.length ≤ i.toNat ∧ (!fixed) = true) := by omega
    simp only [h1, if_false, hl, if_true]
    refine ⟨_, rfl, by rw [List.length_set]; omega, fun j => ?_⟩
    rw [List.getElem?_set]
    by_cases hj : j = i.toNat
    · subst hj; simp [hl]
    · rw [if_neg (fun e => hj e.symm), if_neg hj]
      by_cases hj' : j < l.length
      · rw [if_pos hj']
      · rw [if_neg hj', if_neg (by omega), List.getElem?_eq_none (by omega)]
  · obtain ⟨hf, hi⟩ : fixed = false ∧ i.toNat + 1 < 2 ^ 32 := h.resolve_left hl
    have h1 : l.length ≤ i.toNat ∧ (!fixed) = true := ⟨by omega, by rw [hf]; rfl⟩
    have h2 : (i + 1).toNat = i.toNat + 1 := by
      rw [BitVec.toNat_add]
      exact Nat.mod_eq_of_lt hi
    have h3 : (Generic.resize zero l (i + 1).toNat).length = i.toNat + 1 := by
      simp only [Generic.resize, List.length_append, List.length_take, List.length_replicate, h2]; omega
    simp only [h1, and_self, if_true, h3, Nat.lt_succ_self]
    refine ⟨_, rfl, by rw [List.length_set, h3]; omega, fun j => ?_⟩
    rw [List.getElem?_set]
    by_cases hj : j = i.toNat
    · subst hj; rw [if_pos rfl, if_pos rfl, if_pos (by omega)]
    · rw [if_neg (fun e => hj e.symm), if_neg hj]
      simp only [Generic.resize, h2]
      rw [List.take_of_length_le (by omega)]
      by_cases hj' : j < l.length
      · rw [if_pos hj', List.getElem?_append_left hj']
      · rw [if_neg hj', List.getElem?_append_right (by omega), List.getElem?_replicate]
        by_cases hk : j < i.toNat
        · rw [if_pos hk, if_pos (by omega)]
        · rw [if_neg hk, if_neg (by omega)]

/-- `LCGenericObjectImpl::setIntVal`: for an index inside, or any index of an object that is not of fixed size, the value is read back, values before it are
kept, new values in between are zero, and floats and doubles stay as they are. (`setFloatVal` and `setDoubleVal` below.) -/
theorem C64_generic_int_partial (o : Generic) (i v : W32) (h : i.toNat < o.ints.length ∨ (o.fixed = false ∧ i.toNat + 1 < 2 ^ 32)) :
    ∃ o' : Generic, o.change false (.setIntVal i v) = .ok o' ∧ o'.get (.getIntVal i.toNat) = .w32 v ∧
      (∀ j : Nat, j ≠ i.toNat → j < o.ints.length → o'.get (.getIntVal j) = o.get (.getIntVal j)) ∧
      (∀ j : Nat, o.ints.length ≤ j → j < i.toNat → o'.get (.getIntVal j) = .w32 0) ∧
      o'.get .getNInt = .w32 (BitVec.ofNat 32 (max o.ints.length (i.toNat + 1))) ∧
      ∀ g : Generic.Getter, g ≠ .getNInt → (∀ j, g ≠ .getIntVal j) → o'.get g = o.get g := by
  obtain ⟨l, h1, h2, h3⟩ := setAt_ok 0 o.fixed o.ints i v h
  refine ⟨{ o with ints := l }, by simp only [Generic.change, h1]; rfl, ?_, fun j hj hl => ?_, fun j hj hl => ?_, ?_, fun g hg hj => ?_⟩
  · simp only [Generic.get, h3, if_true]
  · simp only [Generic.get, h3, if_neg hj, if_pos hl]
  · simp only [Generic.get, h3, if_neg (show j ≠ i.toNat by omega), if_neg (show ¬ j < o.ints.length by omega), if_pos hl]
  · simp only [Generic.get, h2]
  · cases g <;> first | rfl | exact absurd rfl hg | exact absurd rfl (hj _)

/-- `LCGenericObjectImpl::setFloatVal`. -/
theorem C64_generic_float_partial (o : Generic) (i v : W32) (h : i.toNat < o.floats.length ∨ (o.fixed = false ∧ i.toNat + 1 < 2 ^ 32)) :
    ∃ o' : Generic, o.change false (.setFloatVal i v) = .ok o' ∧ o'.get (.getFloatVal i.toNat) = .w32 v ∧
      (∀ j : Nat, j ≠ i.toNat → j < o.floats.length → o'.get (.getFloatVal j) = o.get (.getFloatVal j)) ∧
      (∀ j : Nat, o.floats.length ≤ j → j < i.toNat → o'.get (.getFloatVal j) = .w32 0) ∧
      o'.get .getNFloat = .w32 (BitVec.ofNat 32 (max o.floats.length (i.toNat + 1))) ∧
      ∀ g : Generic.Getter, g ≠ .getNFloat → (∀ j, g ≠ .getFloatVal j) → o'.get g = o.get g := by
  obtain ⟨l, h1, h2, h3⟩ := setAt_ok 0 o.fixed o.floats i v h
  refine ⟨{ o with floats := l }, by simp only [Generic.change, h1]; rfl, ?_, fun j hj hl => ?_, fun j hj hl => ?_, ?_, fun g hg hj => ?_⟩
  · simp only [Generic.get, h3, if_true]
  · simp only [Generic.get, h3, if_neg hj, if_pos hl]
  · simp only [Generic.get, h3, if_neg (show j ≠ i.toNat by omega), if_neg (show ¬ j < o.floats.length by omega), if_pos hl]
  · simp only [Generic.get, h2]
  · cases g <;> first | rfl | exact absurd rfl hg | exact absurd rfl (hj _)

/-- `LCGenericObjectImpl::setDoubleVal`. -/
theorem C64_generic_double_partial (o : Generic) (i : W32) (v : W64) (h : i.toNat < o.doubles.length ∨ (o.fixed = false ∧ i.toNat + 1 < 2 ^ 32)) :
    ∃ o' : Generic, o.change false (.setDoubleVal i v) = .ok o' ∧ o'.get (.getDoubleVal i.toNat) = .w64 v ∧
      (∀ j : Nat, j ≠ i.toNat → j < o.doubles.length → o'.get (.getDoubleVal j) = o.get (.getDoubleVal j)) ∧
      (∀ j : Nat, o.doubles.length ≤ j → j < i.toNat → o'.get (.getDoubleVal j) = .w64 0) ∧
      o'.get .getNDouble = .w32 (BitVec.ofNat 32 (max o.doubles.length (i.toNat + 1))) ∧
      ∀ g : Generic.Getter, g ≠ .getNDouble → (∀ j, g ≠ .getDoubleVal j) → o'.get g = o.get g := by
  obtain ⟨l, h1, h2, h3⟩ := setAt_ok 0 o.fixed o.doubles i v h
  refine ⟨{ o with doubles := l }, by simp only [Generic.change, h1]; rfl, ?_, fun j hj hl => ?_, fun j hj hl => ?_, ?_, fun g hg hj => ?_⟩
  · simp only [Generic.get, h3, if_true]
  · simp only [Generic.get, h3, if_neg hj, if_pos hl]
  · simp only [Generic.get, h3, if_neg (show j ≠ i.toNat by omega), if_neg (show ¬ j < o.doubles.length by omega), if_pos hl]
  · simp only [Generic.get, h2]
  · cases g <;> first | rfl | exact absurd rfl hg | exact absurd rfl (hj _)

/-! ## Setters of several attributes -/

/-- `MCParticleImpl::setEndpoint`: the end point is read back whatever daughters the particle has, bit 31 of the simulator status is set, and the rest is
unchanged. -/
theorem C64_endpoint (std : Std Pid) (o : MCParticle) (v : List W64) (hv : v.length = 3) : ∃ o', o.change std false (.setEndpoint v) = .ok o' ∧
    (∀ h, o'.getEndpoint h = v) ∧ o'.get .getSimulatorStatus = withBit 31 true (o.get .getSimulatorStatus) ∧
    ∀ g, g ≠ .getSimulatorStatus → o'.get g = o.get g := by
  have e : copyArray 3 v = .ok v := by rw [copyArray_ok (by omega), List.take_of_length_le (by omega)]
  refine ⟨{ o with simStatus := wordWith o.simStatus 31 true, endpoint := v }, ?_, fun h => ?_, rfl, fun g hg => ?_⟩
  · simp only [MCParticle.change, setBitsetBit_31, e, Bool.false_eq_true, if_false]; rfl
  · simp only [MCParticle.getEndpoint, wordWith_bit o.simStatus 31 true 31 (by decide)]; rfl
  · cases g <;> first | rfl | exact absurd rfl hg

/-- The end point is not read back any more after `setSimulatorStatus` if the particle has daughters: it is the vertex of the daughter. -/
theorem C64_fails_for_endpoint : ∃ (o o1 o2 : MCParticle) (h : Nat → MCParticle), o.change stdZero false (.setEndpoint [1, 2, 3]) = .ok o1 ∧
    o1.change stdZero false (.setSimulatorStatus 0) = .ok o2 ∧ o1.getEndpoint h = [1, 2, 3] ∧ o2.getEndpoint h = [7, 7, 7] :=
  ⟨{ daughters := [4] }, _, _, fun _ => { vertex := [7, 7, 7] }, rfl, rfl, by decide, by decide⟩

/-- `ClusterImpl::addHit` appends to hits and contributions, which stay of equal length. -/
theorem C64_cluster_addHit (std : Std Pid) (o : Cluster) (hit : Nat) (w : W32) : ∃ o', o.change std false (.addHit hit w) = .ok o' ∧
    o'.get .getCalorimeterHits = .ptrs (o.hits ++ [hit]) ∧ o'.get .getHitContributions = .f32s (o.weights ++ [w]) ∧
    ∀ g, g ≠ .getCalorimeterHits → g ≠ .getHitContributions → o'.get g = o.get g := by
  refine ⟨_, rfl, rfl, rfl, fun g h1 h2 => ?_⟩
  cases g <;> first | rfl | exact absurd rfl h1 | exact absurd rfl h2

/-- `ClusterImpl::setShape` appends to the shape parameters: after a second call the getter returns both. -/
theorem C64_fails_for_shape (std : Std Pid) (o : Cluster) (v w : List W32) : ∃ o1 o2, o.change std false (.setShape v) = .ok o1 ∧
    o1.change std false (.setShape w) = .ok o2 ∧ o2.get .getShape = .f32s (o.shape ++ v ++ w) :=
  ⟨_, _, rfl, rfl, rfl⟩

/-- `TrackerDataImpl::setChargeValues` and `TrackerRawDataImpl::setADCValues` with the vector of the object itself lose all values. -/
theorem C64_fails_for_own_values (o : TrackerData) (r : TrackerRawData) : (∃ o', o.change false .setChargeValuesOwn = .ok o' ∧ o'.get .getChargeValues = .f32s []) ∧
    ∃ r', r.change false .setADCValuesOwn = .ok r' ∧ r'.get .getADCValues = .i16s [] :=
  ⟨⟨_, rfl, rfl⟩, _, rfl, rfl⟩

/-- The setters of track parameters throw for a track with several track states. -/
theorem C64_fails_for_track_states (o : Track) (h : 2 ≤ o.states.length) (v : W32) : o.change false (.setD0 v) = .error .lcException := by
  rcases o with ⟨t, c2, n, d, de, r, hn, tr, hi, _ | ⟨s0, _ | ⟨s1, st⟩⟩⟩
  · simp at h
  · simp at h
  · rfl

/-- Bit numbers outside of the word: undefined behaviour for quality bits, an exception for type bits. -/
theorem C64_fails_for_bits (bit : Int) (h : bit < 0 ∨ 32 ≤ bit) (val : Bool) : (∀ o : TrackerHit, o.change false (.setQualityBit bit val) = .error .ub) ∧
    (∀ o : SimTrackerHit, o.change false (.setQualityBit bit val) = .error .ub) ∧ (∀ o : TrackerPulse, o.change false (.setQualityBit bit val) = .error .ub) ∧
    (∀ o : Track, o.change false (.setTypeBit bit val) = .error .outOfRange) := by
  refine ⟨fun o => ?_, fun o => ?_, fun o => ?_, fun o => ?_⟩
  · simp only [TrackerHit.change, setWordBit, Util.oneShl, h, if_true]; rfl
  · simp only [SimTrackerHit.change, setWordBit, Util.oneShl, h, if_true]; rfl
  · simp only [TrackerPulse.change, setWordBit, Util.oneShl, h, if_true]; rfl
  · cases val
    · simp only [Track.change, setBitsetBit, Util.unset_bit, Util.bitsetPos, h, if_true]; rfl
    · simp only [Track.change, setBitsetBit, Util.set_bit, Util.bitsetPos, h, if_true]; rfl

/-- Vectors that are too short: undefined behaviour. -/
theorem C64_fails_for_short_vectors (v : List W32) : (v.length < 6 → ∀ o : TrackerHit, o.change false (.setCovMatrix v) = .error .ub) ∧
    (v.length < 15 → ∀ o : TrackState, o.change false (.setCovMatrix v) = .error .ub) ∧
    (v.length < 6 → ∀ o : Cluster, ∀ std, o.change std false (.setPositionError v) = .error .ub) := by
  refine ⟨fun h o => ?_, fun h o => ?_, fun h o std => ?_⟩
  · simp only [TrackerHit.change, copyArray, h, if_true]; rfl
  · simp only [TrackState.change, copyArray, h, if_true]; rfl
  · simp only [Cluster.change, copyArray, h, if_true]; rfl

/-- `LCGenericObjectImpl` of fixed size: an index outside is undefined behaviour; so is the index 2^32-1 of one that is not. -/
theorem C64_fails_for_index (o : Generic) (i v : W32) (hi : o.ints.length ≤ i.toNat) (h : o.fixed = true ∨ i = 0xffffffff) :
    o.change false (.setIntVal i v) = .error .ub := by
  have : Generic.setAt 0 o.fixed o.ints i v = .error .ub := by
    unfold Generic.setAt
    rcases h with h | h
    · have h1 : ¬(o.ints.length ≤ i.toNat ∧ (!o.fixed) = true) := by simp [h]
      simp only [h1, if_false, Nat.not_lt.mpr hi]
    · by_cases hf : o.fixed = true
      · have h1 : ¬(o.ints.length ≤ i.toNat ∧ (!o.fixed) = true) := by simp [hf]
        simp only [h1, if_false, Nat.not_lt.mpr hi]
      · have h1 : o.ints.length ≤ i.toNat ∧ (!o.fixed) = true := ⟨hi, by simpa using hf⟩
        have h2 : (Generic.resize 0 o.ints (i + 1).toNat).length = 0 := by rw [h]; simp [Generic.resize]
        rw [if_pos h1]
        show (if i.toNat < (Generic.resize 0 o.ints (i + 1).toNat).length then _ else _) = _
        rw [h2, if_neg (Nat.not_lt_zero _)]
  simp only [Generic.change, this]; rfl

/-! ## The weight of an event -/

/-- The weight is read back as the nearest `float`, unless that is a zero; the other attributes and parameters stay as they are.
Missing: zero. -/
theorem C64_weight_partial (std : Std Pid) (o : EventHeader) (w : W64) (hp : o.params.readOnly = false)
    (h0 : std.widen (std.narrow w) ≠ 0) (h1 : std.widen (std.narrow w) ≠ 0x8000000000000000) : ∃ o', o.change std false (.setWeight w) = .ok o' ∧
    o'.getWeight std = .ok (std.widen (std.narrow w)) ∧ (∀ g, o'.get g = o.get g) ∧
    (∀ k, k ≠ weightKey → getVals o'.params.floats k [] = getVals o.params.floats k []) ∧ o'.params.ints = o.params.ints ∧ o'.params.strs = o.params.strs := by
  refine ⟨{ o with params := { o.params with floats := assignVal o.params.floats weightKey (std.narrow w) } }, ?_, ?_, fun g => ?_, fun k hk => ?_, rfl, rfl⟩
  · simp only [EventHeader.change, Params.setFloat, Params.checked, hp, Bool.false_eq_true, if_false]; rfl
  · have e : getVal 0 (assignVal o.params.floats weightKey (std.narrow w)) weightKey = .ok (std.narrow w) := by
      simp only [getVal, omFind_assignVal, if_true]
    have hn : ¬(std.widen (std.narrow w) = 0 ∨ std.widen (std.narrow w) = 0x8000000000000000) := fun h => h.elim h0 h1
    show (getVal 0 (assignVal o.params.floats weightKey (std.narrow w)) weightKey >>= _) = _
    rw [e]
    show (pure (if _ then _ else _) : Except Err W64) = _
    rw [if_neg hn]; rfl
  · cases g <;> rfl
  · simp only [getVals, omFind_assignVal, if_neg hk]

/-- A weight of zero is read back as one. -/
theorem C64_fails_for_weight : ∃ o o' : EventHeader, o.params.readOnly = false ∧ o.change ieee false (.setWeight 0) = .ok o' ∧ o'.getWeight ieee = .ok 0x3ff0000000000000 :=
  ⟨{ run := 3 }, { run := 3, params := { floats := [(weightKey, [0])] } }, rfl, by decide +kernel, by decide +kernel⟩

/-! ## Examples -/

/-- A particle with all attributes set. -/
def setterParticle : MCParticle :=
  { pdg := 11, genStatus := 1, simStatus := 0x40000000, vertex := [1, 2, 3], endpoint := [4, 5, 6], time := 7, daughters := [2, 3], parents := [9] }

example : mCParticleMeant ieee (.setVertex [7, 8, 9]) = some (.getVertex, fun _ => .f64s [7, 8, 9]) ∧ mCParticleUsable (.setVertex [7, 8, 9]) ∧
    setterParticle.get .getVertex = .f64s [1, 2, 3] ∧ (∃ o', setterParticle.change ieee false (.setVertex [7, 8, 9]) = .ok o' ∧ o'.get .getVertex = .f64s [7, 8, 9]) :=
  ⟨rfl, (show 3 ≤ 3 by decide), rfl, _, rfl, rfl⟩

example : ∃ o', setterParticle.change ieee false (.setStopped true) = .ok o' ∧ o'.get .getSimulatorStatus = .w32 0x41000000 :=
  ⟨_, rfl, by decide +kernel⟩

/-- 0x3fe0000000000000 is one half. -/
example : ieee.widen (ieee.narrow 0x3fe0000000000000) = 0x3fe0000000000000 := by decide +kernel

example : (3 : W32).toNat < [1, 2, 3, 4].length ∧ ∃ o', Generic.change false { ints := [1, 2], fixed := false } (.setIntVal 4 9) = .ok o' ∧ o'.ints = [1, 2, 0, 0, 9] :=
  ⟨by decide, _, rfl, by decide⟩

end Props
