import Verif.Lcio.FlatTyped
/-
Reading what was written, class by class.
-/
namespace Lcio
open Sio Spec

theorem bv_1_0 : newer blockVersion 1 0 = true := by decide
theorem bv_1_1 : newer blockVersion 1 1 = true := by decide
theorem bv_1_2 : newer blockVersion 1 2 = true := by decide
theorem bv_1_6 : newer blockVersion 1 6 = true := by decide
theorem bv_1_7 : newer blockVersion 1 7 = true := by decide
theorem bv_1_9 : newer blockVersion 1 9 = true := by decide
theorem bv_1_11 : newer blockVersion 1 11 = true := by decide
theorem bv_1_12 : newer blockVersion 1 12 = true := by decide
theorem bv_1_51 : newer blockVersion 1 51 = true := by decide
theorem bv_2_6 : newer blockVersion 2 6 = true := by decide
theorem bv_2_7 : newer blockVersion 2 7 = true := by decide
theorem bv_2_10 : newer blockVersion 2 10 = true := by decide
theorem bv_2_0 : atLeast blockVersion 2 0 = true := by decide
theorem bv_08 : isV08 blockVersion = false := by decide

/-- The rules for reading a list of calls. -/
syntax "rules" "[" Lean.Parser.Tactic.simpLemma,* "]" : tactic
macro_rules
  | `(tactic| rules [$ls,*]) => `(tactic|
    simp only [$ls,*, flat_append, List.append_assoc, flat_w32, flat_w64, flat_wPtr, flat_wTag, flat_w32s, flat_w64s, flat_each32, flat_each64, flat_wIf,
      flat_wBool, flat_wEach, runF_bind, Option.bind_some, runF_r32, runF_r64, runF_rPtr, runF_rTag, runF_rNew, runF_if32, runF_ifTag, runF_pure, runF_ret, rIf_true,
      rIf_false, bv_1_0, bv_1_1, bv_1_2, bv_1_6, bv_1_7, bv_1_9, bv_1_11, bv_1_12, bv_1_51, bv_2_6, bv_2_7, bv_2_10, bv_2_0, bv_08, Bool.and_true, Bool.true_and,
      Bool.or_false, if_true, Bool.not_true, Bool.false_eq_true, if_false])

variable (c : Ctx) (φ : Nat → Nat) (is : List Item) (n : Nat) (rg : List (Nat × Nat)) (addr self : Nat)

theorem MCParticle.law (o : MCParticle) (h : MCParticleOk o) :
    (MCParticle.read c blockVersion self).runF φ ⟨flat (MCParticle.write c addr o) ++ is, n, rg⟩ =
    some (keptMCParticle c.std φ o, ⟨is, n, rg ++ [(addr, self)]⟩) := by
  have h1 : (o.p.map c.std.narrow).length = 3 := by rw [List.length_map]; exact h.p
  have h2 : (o.pEndpoint.map c.std.narrow).length = 3 := by rw [List.length_map]; exact h.pEndpoint
  rules [MCParticle.read, MCParticle.write, wFor_eq _ _ h.parents, runF_rSizedPtr _ _ _ _ _ h.parents, runF_r64s _ _ _ _ _ _ h.vertex,
    runF_r32s _ _ _ _ _ _ h1, runF_if32s _ _ _ _ _ _ _ _ h2, runF_if64s _ _ _ _ _ _ _ _ h.endpoint, runF_r32s _ _ _ _ _ _ h.spin,
    runF_r32s _ _ _ _ _ _ h.colorFlow]
  unfold keptMCParticle ifBit zero3
  cases o.simStatus.getLsbD 31 <;> simp [List.map_map, viaFloat] <;> rfl

theorem SimCont.law (o : SimCont) (h : o.stepPosition.length = 3) :
    (SimCont.read c blockVersion).runF φ ⟨flat (SimCont.write c o) ++ is, n, rg⟩ = some (keptSimCont c.flag φ o, ⟨is, n, rg⟩) := by
  rules [SimCont.read, SimCont.write, runF_ifRepeat _ _ _ _ _ _ _ _ h]
  rfl

theorem SimCalHit.law (o : SimCalHit) (h : SimCalHitOk o) :
    (SimCalHit.read c blockVersion self).runF φ ⟨flat (SimCalHit.write c addr o) ++ is, n, rg⟩ =
    some (keptSimCalHit c.flag φ o, ⟨is, n, rg ++ [(addr, self)]⟩) := by
  rules [SimCalHit.read, SimCalHit.write, wFor_eq _ _ h.conts, runF_if32s _ _ _ _ _ _ _ _ h.position,
    runF_rSized φ _ _ _ (SimCont.read c blockVersion) (fun x => flat (SimCont.write c x)) (keptSimCont c.flag φ) o.conts h.conts
      (fun x hx is n rg => SimCont.law c φ is n rg x (h.step x hx))]
  rfl

theorem CalHit.law (o : CalHit) (h : o.position.length = 3) :
    (CalHit.read c blockVersion self).runF φ ⟨flat (CalHit.write c addr o) ++ is, n, rg⟩ =
    some (keptCalHit c.flag φ o, ⟨is, n, rg ++ if !c.flag.getLsbD 28 then [(addr, self)] else []⟩) := by
  rules [CalHit.read, CalHit.write, runF_if32s _ _ _ _ _ _ _ _ h]
  rfl

theorem RawCalHit.law (o : RawCalHit) :
    (RawCalHit.read c blockVersion self).runF φ ⟨flat (RawCalHit.write c addr o) ++ is, n, rg⟩ =
    some (keptRawCalHit c.flag o, ⟨is, n, rg ++ if !c.flag.getLsbD 28 then [(addr, self)] else []⟩) := by
  rules [RawCalHit.read, RawCalHit.write]
  rfl

theorem SimTrackerHit.law (o : SimTrackerHit) (h : SimTrackerHitOk o) :
    (SimTrackerHit.read c blockVersion self).runF φ ⟨flat (SimTrackerHit.write c addr o) ++ is, n, rg⟩ =
    some (keptSimTrackerHit c.flag φ o, ⟨is, n, rg ++ [(addr, self)]⟩) := by
  rules [SimTrackerHit.read, SimTrackerHit.write, runF_r64s _ _ _ _ _ _ h.pos, runF_if32s _ _ _ _ _ _ _ _ h.p]
  rfl

theorem TrackerHit.law (o : TrackerHit) (h : TrackerHitOk o) :
    (TrackerHit.read c blockVersion self).runF φ ⟨flat (TrackerHit.write c addr o) ++ is, n, rg⟩ =
    some (keptTrackerHit c.flag φ o, ⟨is, n, rg ++ [(addr, self)]⟩) := by
  rules [TrackerHit.read, TrackerHit.write, runF_r64s _ _ _ _ _ _ h.pos, runF_r32s _ _ _ _ _ _ h.cov, runF_rSizedPtr _ _ _ _ _ h.rawHits]
  rfl

theorem TrackerHitPlane.law (o : TrackerHitPlane) (h : TrackerHitPlaneOk o) :
    (TrackerHitPlane.read c blockVersion self).runF φ ⟨flat (TrackerHitPlane.write c addr o) ++ is, n, rg⟩ =
    some (keptTrackerHitPlane c.flag φ o, ⟨is, n, rg ++ [(addr, self)]⟩) := by
  rules [TrackerHitPlane.read, TrackerHitPlane.write, runF_r64s _ _ _ _ _ _ h.pos, runF_r32s _ _ _ _ _ _ h.u, runF_r32s _ _ _ _ _ _ h.v,
    runF_rSizedPtr _ _ _ _ _ h.rawHits]
  rfl

theorem TrackerHitZCylinder.law (o : TrackerHitZCylinder) (h : TrackerHitZCylinderOk o) :
    (TrackerHitZCylinder.read c blockVersion self).runF φ ⟨flat (TrackerHitZCylinder.write c addr o) ++ is, n, rg⟩ =
    some (keptTrackerHitZCylinder c.flag φ o, ⟨is, n, rg ++ [(addr, self)]⟩) := by
  rules [TrackerHitZCylinder.read, TrackerHitZCylinder.write, runF_r64s _ _ _ _ _ _ h.pos, runF_r32s _ _ _ _ _ _ h.center,
    runF_rSizedPtr _ _ _ _ _ h.rawHits]
  rfl

theorem TrackerRawData.law (o : TrackerRawData) (h : small o.adc.length) :
    (TrackerRawData.read c self).runF φ ⟨flat (TrackerRawData.write c addr o) ++ is, n, rg⟩ =
    some (keptTrackerRawData c.flag o, ⟨is, n, rg ++ [(addr, self)]⟩) := by
  rules [TrackerRawData.read, TrackerRawData.write, runF_rVec16 _ _ _ _ _ h]
  rfl

theorem TrackerData.law (o : TrackerData) (h : small o.charge.length) :
    (TrackerData.read c self).runF φ ⟨flat (TrackerData.write c addr o) ++ is, n, rg⟩ =
    some (keptTrackerData c.flag o, ⟨is, n, rg ++ [(addr, self)]⟩) := by
  rules [TrackerData.read, TrackerData.write, runF_rVec32 _ _ _ _ _ h]
  rfl

theorem TrackerPulse.law (o : TrackerPulse) (h : o.cov.length = 3) :
    (TrackerPulse.read c blockVersion self).runF φ ⟨flat (TrackerPulse.write c addr o) ++ is, n, rg⟩ =
    some (keptTrackerPulse c.flag φ o, ⟨is, n, rg ++ [(addr, self)]⟩) := by
  rules [TrackerPulse.read, TrackerPulse.write, runF_if32s _ _ _ _ _ _ _ _ h]
  rfl

theorem TPCHit.law (o : TPCHit) (h : small o.raw.length) :
    (TPCHit.read c blockVersion self).runF φ ⟨flat (TPCHit.write c addr o) ++ is, n, rg⟩ =
    some (keptTPCHit c.flag o, ⟨is, n, rg ++ if !c.flag.getLsbD 30 then [(addr, self)] else []⟩) := by
  rules [TPCHit.read, TPCHit.write, wFor_eq _ _ h, runF_ifCounted _ _ _ _ _ _ _ h]
  rfl

theorem TrackState.law (o : TrackState) (h : o.cov.length = 15 ∧ o.reference.length = 3) :
    (TrackState.read blockVersion).runF φ ⟨flat (TrackState.write o) ++ is, n, rg⟩ = some (o, ⟨is, n, rg⟩) := by
  rules [TrackState.read, TrackState.write, runF_r32s _ _ _ _ _ _ h.1, runF_r32s _ _ _ _ _ _ h.2]

theorem getTrackState_none (l : List TrackState) (s : TrackState) (h : ∀ t ∈ l, t.location ≠ s.location) : getTrackState l s.location = none := by
  unfold getTrackState
  rw [List.find?_eq_none]
  intro x hx
  simp only [beq_iff_eq]
  exact h x hx

theorem readStates_law (l acc : List TrackState) (hl : ∀ s ∈ l, s.cov.length = 15 ∧ s.reference.length = 3)
    (hp : (acc ++ l).Pairwise fun s t => s.location ≠ t.location ∨ s.location = 0) :
    (readStates blockVersion l.length acc).runF φ ⟨(l.flatMap fun x => flat (TrackState.write x)) ++ is, n, rg⟩ = some (acc ++ l, ⟨is, n, rg⟩) := by
  induction l generalizing acc with
  | nil => simp [readStates, runF_ret]
  | cons s l ih =>
    rw [List.length_cons, readStates, runF_bind, List.flatMap_cons, List.append_assoc, TrackState.law _ _ _ _ _ (hl s (by simp))]
    simp only [Option.bind_some]
    have ha : addTrackState acc s = .ok (acc ++ [s]) := by
      unfold addTrackState
      rw [if_neg]
      rintro ⟨h1, h2⟩
      rw [getTrackState_none] at h2
      · cases h2
      · intro t ht
        have := List.pairwise_append.1 hp
        rcases this.2.2 t ht s (by simp) with h | h
        · exact h
        · intro he; exact h1 (by rw [← he]; exact h)
    rw [ha]
    have := ih (acc ++ [s]) (fun x hx => hl x (by simp [hx])) (by simpa using hp)
    simpa using this

theorem Track.law (o : Track) (h : TrackOk o) :
    (Track.read c blockVersion self).runF φ ⟨flat (Track.write c addr o) ++ is, n, rg⟩ =
    some (keptTrack c.flag φ o, ⟨is, n, rg ++ [(addr, self)]⟩) := by
  have hs := fun is n rg => readStates_law φ is n rg o.states [] h.cov (by simpa using h.locations)
  simp only [List.nil_append] at hs
  rules [Track.read, Track.write, wFor_eq _ _ h.hitNumbers, wFor_eq _ _ h.tracks, wFor_eq _ _ h.hits]
  rw [show wEach (fun x => flat (TrackState.write x)) o.states = w32 (BitVec.ofNat 32 o.states.length) ++ o.states.flatMap fun x => flat (TrackState.write x) from rfl]
  rules [small_count _ h.states, hs, runF_rSized32 _ _ _ _ _ h.hitNumbers, runF_rSizedPtr _ _ _ _ _ h.tracks, runF_ifPtrs _ _ _ _ _ _ _ h.hits]
  rfl

theorem Pid.dataLaw (o : Pid) (h : small o.params.length) :
    Pid.readData.runF φ ⟨flat (Pid.writeData o) ++ is, n, rg⟩ = some ({ o with addr := 0 }, ⟨is, n, rg⟩) := by
  rules [Pid.readData, Pid.writeData, wFor_eq _ _ h, runF_rFor32 _ _ _ _ _ h]

theorem writeHits_eq (hs : List Nat) (ws : List W32) (h : ws.length = hs.length) : writeHits hs ws = (hs.zip ws).flatMap fun x => wPtr x.1 ++ w32 x.2 := by
  induction hs generalizing ws with
  | nil => rfl
  | cons a hs ih =>
    match ws, h with
    | w :: ws, h => simp only [writeHits, List.zip_cons_cons, List.flatMap_cons]; rw [ih ws (by simpa using h)]

theorem Cluster.hitsLaw (hs : List Nat) (ws : List W32) (hl : small hs.length) (h : ws.length = hs.length) :
    (rSized (do let h ← rPtr; let w ← r32; return (h, w))).runF φ
      ⟨w32 (BitVec.ofNat 32 hs.length) ++ (flat (writeHits (hs.take (loops (BitVec.ofNat 32 hs.length))) ws) ++ is), n, rg⟩ =
    some ((hs.map φ).zip ws, ⟨is, n, rg⟩) := by
  rw [small_count _ hl, List.take_length, writeHits_eq _ _ h, flat_flatMap]
  have hz : (hs.zip ws).length = hs.length := by rw [List.length_zip, h, Nat.min_self]
  have := runF_rSized φ is n rg (do let h ← rPtr; let w ← r32; return (h, w)) (fun x : Nat × W32 => flat (wPtr x.1 ++ w32 x.2)) (fun x => (φ x.1, x.2))
    (hs.zip ws) (by rw [hz]; exact hl) (fun x _ is n rg => by rules [flat_nil])
  unfold wEach at this
  rw [hz, List.append_assoc] at this
  rw [this]
  congr 2
  rw [List.zip_map_left]; rfl

theorem Cluster.law (o : Cluster) (h : ClusterOk o) :
    (Cluster.read c blockVersion self).runF φ ⟨flat (Cluster.write c addr o) ++ is, n, rg⟩ =
    some (keptCluster c.std c.flag φ o, ⟨is, n, rg ++ [(addr, self)]⟩) := by
  have hh : ∀ is n rg, (rIf (c.bit 31) (rSized (do let h ← rPtr; let w ← r32; return (h, w))) []).runF φ
      ⟨wIf (c.bit 31) (w32 (BitVec.ofNat 32 o.hits.length) ++ flat (writeHits (o.hits.take (loops (BitVec.ofNat 32 o.hits.length))) o.weights)) ++ is, n, rg⟩ =
      some (if c.bit 31 then (o.hits.map φ).zip o.weights else [], ⟨is, n, rg⟩) := by
    intro is n rg
    apply runF_rIf
    rw [List.append_assoc]
    exact Cluster.hitsLaw φ is n rg _ _ h.hits h.weights
  have hp := fun is n rg => runF_rFor φ is n rg Pid.readData (fun x => flat (Pid.writeData x)) (fun o => { o with addr := 0 }) o.pids h.pids
    (fun x hx is n rg => Pid.dataLaw φ is n rg x (h.params x hx))
  have hs : ∀ is n rg, rCount.runF φ ⟨wEach w32 o.shape ++ is, n, rg⟩ = some (o.shape.length, ⟨o.shape.flatMap w32 ++ is, n, rg⟩) := by
    intro is n rg
    unfold wEach
    rw [List.append_assoc, runF_rCount _ _ _ _ _ h.shape]
  rules [Cluster.read, Cluster.write, wFor_eq _ _ h.pids, wFor_eq _ _ h.clusters, wFor_eq _ _ h.energies, runF_r32s _ _ _ _ _ _ h.position,
    runF_r32s _ _ _ _ _ _ h.posError, runF_r32s _ _ _ _ _ _ h.dirError, hs, runF_r32s _ _ _ _ o.shape _ rfl, hp, runF_rSizedPtr _ _ _ _ _ h.clusters, hh,
    runF_rSized32 _ _ _ _ _ h.energies]
  have hz : ((o.hits.map φ).zip o.weights).map (·.1) = o.hits.map φ := List.map_fst_zip (by rw [List.length_map, h.weights]; exact Nat.le_refl _)
  have hz2 : ((o.hits.map φ).zip o.weights).map (·.2) = o.weights := List.map_snd_zip (by rw [List.length_map, h.weights]; exact Nat.le_refl _)
  unfold keptCluster ifBit Ctx.bit
  cases c.flag.getLsbD 31
  · rfl
  · simp only [if_true, hz, hz2]; rfl

/-- The particle ids of a reconstructed particle get the next identities. -/
def numberPids (n : Nat) (l : List Pid) : List Pid := l.zipWith (fun p id => { p with addr := id }) (List.range' n l.length)
/-- ... and are registered under these. -/
def pidRegs (n : Nat) (l : List Pid) : List (Nat × Nat) := (l.map (·.addr)).zip (List.range' n l.length)

theorem Pid.law (o : Pid) (h : small o.params.length) :
    Pid.read.runF φ ⟨flat (Pid.write o) ++ is, n, rg⟩ = some ({ o with addr := n }, ⟨is, n + 1, rg ++ [(o.addr, n)]⟩) := by
  have := fun is n rg => Pid.dataLaw φ is n rg o h
  rules [Pid.read, Pid.write, this]

theorem Pid.listLaw (l : List Pid) (h : ∀ p ∈ l, small p.params.length) :
    (rRepeat l.length Pid.read).runF φ ⟨(l.flatMap fun x => flat (Pid.write x)) ++ is, n, rg⟩ =
    some (numberPids n l, ⟨is, n + l.length, rg ++ pidRegs n l⟩) := by
  induction l generalizing n rg with
  | nil => simp [rRepeat, numberPids, pidRegs, runF_ret]
  | cons x l ih =>
    simp only [List.length_cons, rRepeat, List.flatMap_cons, List.append_assoc, runF_bind, Pid.law _ _ _ _ _ (h x (by simp)), Option.bind_some,
      ih _ _ (fun y hy => h y (by simp [hy])), runF_pure]
    simp only [numberPids, pidRegs, List.length_cons, List.range'_succ, List.zipWith_cons_cons, List.map_cons, List.zip_cons_cons, List.cons_append,
      List.nil_append, Option.some.injEq, Prod.mk.injEq, ISt.mk.injEq, true_and, and_true]
    omega

theorem RecoParticle.law (o : RecoParticle) (h : RecoParticleOk o) :
    (RecoParticle.read c blockVersion self).runF φ ⟨flat (RecoParticle.write c addr o) ++ is, n, rg⟩ =
    some (keptRecoParticle c.std φ (List.range' n o.pids.length) o, ⟨is, n + o.pids.length, rg ++ (pidRegs n o.pids ++ [(addr, self)])⟩) := by
  have h1 : (o.momentum.map c.std.narrow).length = 3 := by rw [List.length_map]; exact h.momentum
  have hp : ∀ is n rg, (rFor Pid.read).runF φ ⟨wEach (fun x => flat (Pid.write x)) o.pids ++ is, n, rg⟩ =
      some (numberPids n o.pids, ⟨is, n + o.pids.length, rg ++ pidRegs n o.pids⟩) := by
    intro is n rg
    unfold rFor wEach
    rw [List.append_assoc, runF_bind, runF_r32]
    simp only [Option.bind_some]
    rw [small_count _ h.pids]
    exact Pid.listLaw φ is n rg o.pids h.params
  rules [RecoParticle.read, RecoParticle.write, wFor_eq _ _ h.pids, wFor_eq _ _ h.particles, wFor_eq _ _ h.tracks, wFor_eq _ _ h.clusters,
    runF_r32s _ _ _ _ _ _ h1, runF_r32s _ _ _ _ _ _ h.cov, runF_r32s _ _ _ _ _ _ h.reference, hp, runF_rSizedPtr _ _ _ _ _ h.particles,
    runF_rSizedPtr _ _ _ _ _ h.tracks, runF_rSizedPtr _ _ _ _ _ h.clusters]
  unfold keptRecoParticle
  simp only [List.map_map]
  rfl

theorem getD_findIdx (l : List Str) (s : Str) (h : s ∈ l) : l.getD (l.findIdx (· == s)) [] = s := by
  induction l with
  | nil => cases h
  | cons x l ih =>
    rw [List.findIdx_cons]
    by_cases hx : x = s
    · simp [hx]
    · rcases List.mem_cons.1 h with rfl | h
      · exact absurd rfl hx
      · have : (x == s) = false := by simpa using hx
        rw [this]
        simpa using ih h

theorem Vertex.law (o : Vertex) (h : VertexOk o) (ha : small c.algs.length) (hm : o.algorithmType ∈ c.algs) :
    (Vertex.read c self).runF φ ⟨flat (Vertex.write c addr o) ++ is, n, rg⟩ =
    some (keptVertex φ o, ⟨is, n, rg ++ [(addr, self)]⟩) := by
  have hi : small (c.algs.findIdx (· == o.algorithmType)) := by
    have := List.findIdx_le_length (p := (· == o.algorithmType)) (xs := c.algs)
    unfold small at *; omega
  rules [Vertex.read, Vertex.write, wFor_eq _ _ h.params, runF_r32s _ _ _ _ _ _ h.pos, runF_r32s _ _ _ _ _ _ h.cov, runF_rFor32 _ _ _ _ _ h.params]
  rw [if_neg (len_pos _ hi), len_toNat _ hi, getD_findIdx _ _ hm]
  unfold keptVertex Vertex.isPrimary
  by_cases h0 : o.primary = 0 <;> simp [h0]

theorem Relation.law (o : Relation) :
    (Relation.read c).runF φ ⟨flat (Relation.write c o) ++ is, n, rg⟩ = some (keptRelation c.flag φ o, ⟨is, n, rg⟩) := by
  rules [Relation.read, Relation.write]
  rfl

theorem vec32Law (l : List W32) (h : small l.length) :
    (vecRead r32 blockVersion self).runF φ ⟨flat (vecWrite w32 addr l) ++ is, n, rg⟩ = some (l, ⟨is, n, rg ++ [(addr, self)]⟩) := by
  rules [vecRead, vecWrite, wFor_eq _ _ h, runF_rSized32 _ _ _ _ _ h]

theorem vecStrLaw (l : List Str) (h : small l.length) (hs : ∀ s ∈ l, small s.length) :
    (vecRead rStr blockVersion self).runF φ ⟨flat (vecWrite wStr addr l) ++ is, n, rg⟩ = some (l, ⟨is, n, rg ++ [(addr, self)]⟩) := by
  have := fun is n rg => runF_rSized φ is n rg rStr (fun s => flat (wStr s)) id l h (fun x hx is n rg => runF_rStr φ is n rg x (hs x hx))
  simp only [List.map_id] at this
  rules [vecRead, vecWrite, wFor_eq _ _ h, this]

theorem writeFirst_all {β : Type} (w : β → List Item) (l : List β) (h : small l.length) : writeFirst w (BitVec.ofNat 32 l.length) l = l.flatMap w := by
  unfold writeFirst
  rw [small_count _ h, if_pos (Nat.le_refl _), List.take_length]

theorem Generic.law (o : Generic) (h : GenericOk o)
    (hs : c.fixed = true → c.nInt = BitVec.ofNat 32 o.ints.length ∧ c.nFloat = BitVec.ofNat 32 o.floats.length ∧ c.nDouble = BitVec.ofNat 32 o.doubles.length) :
    (Generic.read c self).runF φ ⟨flat (Generic.write c addr o) ++ is, n, rg⟩ = some (keptGeneric c.fixed o, ⟨is, n, rg ++ [(addr, self)]⟩) := by
  have e1 : (if c.fixed = true then c.nInt else BitVec.ofNat 32 o.ints.length) = BitVec.ofNat 32 o.ints.length := by
    split
    · exact (hs (by assumption)).1
    · rfl
  have e2 : (if c.fixed = true then c.nFloat else BitVec.ofNat 32 o.floats.length) = BitVec.ofNat 32 o.floats.length := by
    split
    · exact (hs (by assumption)).2.1
    · rfl
  have e3 : (if c.fixed = true then c.nDouble else BitVec.ofNat 32 o.doubles.length) = BitVec.ofNat 32 o.doubles.length := by
    split
    · exact (hs (by assumption)).2.2
    · rfl
  have f1 : (if (!c.fixed) = true then BitVec.ofNat 32 o.ints.length else c.nInt) = BitVec.ofNat 32 o.ints.length := by
    rw [← e1]; cases c.fixed <;> rfl
  have f2 : (if (!c.fixed) = true then BitVec.ofNat 32 o.floats.length else c.nFloat) = BitVec.ofNat 32 o.floats.length := by
    rw [← e2]; cases c.fixed <;> rfl
  have f3 : (if (!c.fixed) = true then BitVec.ofNat 32 o.doubles.length else c.nDouble) = BitVec.ofNat 32 o.doubles.length := by
    rw [← e3]; cases c.fixed <;> rfl
  simp only [Generic.write, e1, e2, e3, writeFirst_all _ _ h.ints, writeFirst_all _ _ h.floats, writeFirst_all _ _ h.doubles]
  rules [Generic.read, f1, f2, f3]
  rw [if_neg (by rintro (h' | h' | h') <;> exact len_pos _ (by first | exact h.ints | exact h.floats | exact h.doubles) h')]
  rules [len_toNat _ h.ints, len_toNat _ h.floats, len_toNat _ h.doubles, runF_r32s _ _ _ _ o.ints _ rfl, runF_r32s _ _ _ _ o.floats _ rfl,
    runF_r64s _ _ _ _ o.doubles _ rfl]
  rfl

end Lcio
