import Verif.Lcio.EventProofs
import Verif.Lcio.FloatLemmas
import Verif.Spec.Copy
/-
Storing what was loaded.
-/
namespace Lcio
open Sio Spec

/-! ### Sizes -/

/-- An item without its contents. -/
def shape : Item → Item
  | .arr s v => .arr s (List.replicate v.length 0)
  | .ptr _ => .ptr 0
  | .tag _ => .tag 0
  | .bad => .bad

/-- Items without their contents. -/
def shapes (is : List Item) : List Item := is.map shape

theorem wireArray_len (s : Nat) (v : List Nat) : (wireArray s v).length = s * v.length + padding (s * v.length) := by
  unfold wireArray
  rw [List.length_append, List.length_replicate]
  congr 1
  induction v with
  | nil => rfl
  | cons a v ih =>
    rw [List.flatMap_cons, List.length_append, ih, List.length_cons, Nat.mul_succ]
    unfold bigEndian
    rw [List.length_map, List.length_range]
    omega

theorem itemLen_shape (i : Item) : itemLen (shape i) = itemLen i := by
  cases i with
  | arr s v =>
    show (wireArray s (List.replicate v.length 0)).length = (wireArray s v).length
    rw [wireArray_len, wireArray_len, List.length_replicate]
  | ptr w => simp [itemLen, shape, itemBytes, bigEndian]
  | tag w => simp [itemLen, shape, itemBytes, bigEndian]
  | bad => rfl

theorem fits_shape (i : Item) : fits (shape i) ↔ fits i := by
  cases i with
  | arr s v => simp [fits, shape]
  | ptr w => rfl
  | tag w => rfl
  | bad => rfl

theorem bytesOf_len (is : List Item) : (bytesOf is).length = (is.map itemLen).sum := by
  induction is with
  | nil => rfl
  | cons i is ih =>
    show (itemBytes i ++ bytesOf is).length = _
    rw [List.length_append, ih, List.map_cons, List.sum_cons]; rfl

theorem shapes_len {is js : List Item} (h : (shapes is).Perm (shapes js)) : (bytesOf is).length = (bytesOf js).length := by
  have key : ∀ l : List Item, l.map itemLen = (shapes l).map itemLen := fun l => by
    unfold shapes; rw [List.map_map]; exact List.map_congr_left fun i _ => (itemLen_shape i).symm
  rw [bytesOf_len, bytesOf_len, key is, key js]
  exact (h.map _).sum_nat

theorem shapes_fits {is js : List Item} (h : (shapes is).Perm (shapes js)) (hf : ∀ i ∈ js, fits i) : ∀ i ∈ is, fits i := by
  intro i hi
  have : shape i ∈ shapes js := h.subset (List.mem_map_of_mem hi)
  obtain ⟨j, hj, hij⟩ := List.mem_map.1 this
  rw [← fits_shape, ← hij, fits_shape]
  exact hf j hj

theorem shapes_append (is js : List Item) : shapes (is ++ js) = shapes is ++ shapes js := List.map_append
theorem shapes_w32 (v : W32) : shapes (w32 v) = [.arr 4 [0]] := rfl
theorem shapes_w64 (v : W64) : shapes (w64 v) = [.arr 8 [0]] := rfl
theorem shapes_wPtr (a : Nat) : shapes (wPtr a) = [.ptr 0] := rfl
theorem shapes_wTag (a : Nat) : shapes (wTag a) = [.tag 0] := rfl
theorem shapes_wBool (b : Bool) : shapes (wBool b) = [.arr 1 [0]] := rfl
theorem shapes_w32s (v : List W32) : shapes (w32s v) = [.arr 4 (List.replicate v.length 0)] := by simp [shapes, w32s, shape]
theorem shapes_w64s (v : List W64) : shapes (w64s v) = [.arr 8 (List.replicate v.length 0)] := by simp [shapes, w64s, shape]
theorem shapes_wIf (b : Bool) (is : List Item) : shapes (wIf b is) = wIf b (shapes is) := by cases b <;> rfl
theorem shapes_flatMap {β : Type} (w : β → List Item) (l : List β) : shapes (l.flatMap w) = l.flatMap fun x => shapes (w x) := by
  unfold shapes; rw [List.map_flatMap]
theorem shapes_each {β : Type} (w : β → List Item) (K : List Item) (h : ∀ x, shapes (w x) = K) (l : List β) :
    shapes (l.flatMap w) = (List.replicate l.length K).flatten := by
  rw [shapes_flatMap]
  induction l with
  | nil => rfl
  | cons a l ih => rw [List.flatMap_cons, ih, h, List.length_cons, List.replicate_succ, List.flatten_cons]
theorem shapes_each32 (l : List W32) : shapes (l.flatMap w32) = (List.replicate l.length [.arr 4 [0]]).flatten := shapes_each _ _ shapes_w32 l
theorem shapes_for {β : Type} (w : β → List Item) (K : List Item) (h : ∀ x, shapes (w x) = K) (l : List β) :
    shapes (wFor w l) = .arr 4 [0] :: (List.replicate (min (loops (BitVec.ofNat 32 l.length)) l.length) K).flatten := by
  unfold wFor
  rw [shapes_append, shapes_each w K h, List.length_take]; rfl
theorem shapes_forPtr (l : List Nat) :
    shapes (wFor wPtr l) = .arr 4 [0] :: (List.replicate (min (loops (BitVec.ofNat 32 l.length)) l.length) [.ptr 0]).flatten := shapes_for _ _ shapes_wPtr l
theorem shapes_for32 (l : List W32) :
    shapes (wFor w32 l) = .arr 4 [0] :: (List.replicate (min (loops (BitVec.ofNat 32 l.length)) l.length) [.arr 4 [0]]).flatten := shapes_for _ _ shapes_w32 l
theorem shapes_eachPtr (l : List Nat) : shapes (wEach wPtr l) = .arr 4 [0] :: (List.replicate l.length [.ptr 0]).flatten := by
  unfold wEach; rw [shapes_append, shapes_each _ _ shapes_wPtr]; rfl

/-- An object with other daughters, if it can have some. -/
def _root_.Lcio.Obj.setD (ds : List Nat) : Obj → Obj
  | .mcParticle o => .mcParticle { o with daughters := ds }
  | o => o

theorem withD_some (D : Nat → List Nat) (e : Elem) (o : Obj) (h : e.obj = some o) : (Elem.withD D e).obj = some (o.setD (D e.addr)) := by
  unfold Elem.withD
  rw [h]
  cases o <;> first | rfl | exact h

theorem shapes_pids (ps qs : List Pid) (h : (ps.map fun p => { p with addr := 0 }).Perm (qs.map fun p => { p with addr := 0 })) (hq : small qs.length) :
    (shapes (wFor Pid.writeData ps)).Perm (shapes (wFor Pid.writeData qs)) ∧ (shapes (wFor Pid.write ps)).Perm (shapes (wFor Pid.write qs)) := by
  have hl : ps.length = qs.length := by simpa using h.length_eq
  have hp : small ps.length := hl ▸ hq
  rw [wFor_eq _ _ hp, wFor_eq _ _ hq, wFor_eq _ _ hp, wFor_eq _ _ hq]
  unfold wEach
  simp only [shapes_append, shapes_w32, shapes_flatMap]
  have k1 : ∀ l : List Pid, (l.flatMap fun p => shapes p.writeData) = (l.map fun p => { p with addr := 0 }).flatMap fun p => shapes p.writeData := by
    intro l; rw [List.flatMap_map]; rfl
  have k2 : ∀ l : List Pid, (l.flatMap fun p => shapes p.write) = (l.map fun p => { p with addr := 0 }).flatMap fun p => shapes p.write := by
    intro l; rw [List.flatMap_map]
    simp only [Pid.write, shapes_append, shapes_wTag]; rfl
  refine ⟨?_, ?_⟩
  · rw [k1 ps, k1 qs]; exact (h.flatMap_right _).append_left _
  · rw [k2 ps, k2 qs]; exact (h.flatMap_right _).append_left _

theorem shapes_hits (hs hs' : List Nat) (ws : List W32) (h : hs'.length = hs.length) : shapes (writeHits hs' ws) = shapes (writeHits hs ws) := by
  induction hs generalizing hs' ws with
  | nil => rw [List.length_eq_zero_iff.1 h]
  | cons a hs ih =>
    match hs', h with
    | a' :: hs', h =>
      cases ws with
      | nil => rfl
      | cons w ws =>
        simp only [writeHits, shapes_append, ih hs' ws (by simpa using h)]; rfl

/-- The pids as they are added. -/
structure Added (std : Std Pid) (o : Obj) : Prop where
  perm : ∀ l : List Pid, (l.map fun p => { p with addr := 0 }) = ((idsOf o).map fun p => { p with addr := 0 }) → (addedInTurn std l).Perm l

theorem zip_addr0 (ps : List Pid) (ids : List Nat) (h : ids.length = ps.length) :
    ((List.zipWith (fun (p : Pid) id => ({ p with addr := id } : Pid)) ps ids).map fun p => { p with addr := 0 }) = ps.map fun p => { p with addr := 0 } := by
  induction ps generalizing ids with
  | nil => rfl
  | cons p ps ih =>
    cases ids with
    | nil => simp at h
    | cons i ids => simp [ih ids (by simpa using h)]

theorem shapes_kept (std : Std Pid) (flag : W32) (ctx ctx' : Ctx) (hf : ctx.flag = flag) (hf' : ctx'.flag = flag) (hc : ctx'.fixed = ctx.fixed)
    (hn : ctx.fixed = true → ctx'.nInt = ctx.nInt ∧ ctx'.nFloat = ctx.nFloat ∧ ctx'.nDouble = ctx.nDouble)
    (T : Nat → Nat) (ids : List Nat) (k : Kind) (o : Obj) (h : ObjOk k o) (hi : ids.length = (pidsOf o).length) (hadd : Added std o) (ds : List Nat) (a a' : Nat) :
    (shapes (writeObj ctx' a' k ((keptObj std flag T ids o).setD ds))).Perm (shapes (writeObj ctx a k o)) := by
  have hb : ∀ i, ctx'.bit i = ctx.bit i := fun i => by unfold Ctx.bit; rw [hf, hf']
  have hb' : ∀ i, flag.getLsbD i = ctx.bit i := fun i => by unfold Ctx.bit; rw [hf]
  cases k <;> cases o <;> simp only [ObjOk] at h <;> simp only [keptObj, Obj.setD, writeObj]
  case mcParticle o =>
    simp only [MCParticle.write, keptMCParticle, shapes_append, shapes_w32, shapes_w64s, shapes_wTag, shapes_wIf, shapes_each32, shapes_forPtr,
      List.length_map, ifBit, h.endpoint, h.pEndpoint]
    cases o.simStatus.getLsbD 31 <;> simp [wIf, h.endpoint, h.pEndpoint]
  case simCalHit o =>
    have hcont : ∀ x : SimCont, x.stepPosition.length = 3 → shapes (SimCont.write ctx' (keptSimCont flag T x)) = shapes (SimCont.write ctx x) := by
      intro x hx
      simp only [SimCont.write, keptSimCont, shapes_append, shapes_w32, shapes_w32s, shapes_wPtr, shapes_wIf, ifBit, hb, hb', hx]
      cases ctx.bit 28 <;> simp [wIf, hx]
    have hfor : shapes (wFor (SimCont.write ctx') (o.conts.map (keptSimCont flag T))) = shapes (wFor (SimCont.write ctx) o.conts) := by
      unfold wFor
      rw [List.length_map, shapes_append, shapes_append, shapes_flatMap, shapes_flatMap, ← List.map_take, List.flatMap_map]
      congr 1
      rw [List.flatMap_def, List.flatMap_def]
      congr 1
      exact List.map_congr_left fun x hx => hcont x (h.step x (List.mem_of_mem_take hx))
    simp only [SimCalHit.write, keptSimCalHit, shapes_append, shapes_w32, shapes_w32s, shapes_wTag, shapes_wIf, hfor, ifBit, hb, hb', h.position]
    cases ctx.bit 29 <;> cases ctx.bit 31 <;> simp [wIf, h.position]
  case rawCalHit o =>
    simp only [RawCalHit.write, keptRawCalHit, shapes_append, shapes_w32, shapes_wTag, shapes_wIf, hb]
    exact List.Perm.refl _
  case calHit o =>
    simp only [CalHit.write, keptCalHit, shapes_append, shapes_w32, shapes_w32s, shapes_wTag, shapes_wPtr, shapes_wIf, hb, hb', h, ifBit]
    cases ctx.bit 31 <;> simp [wIf, h]
  case simTrackerHit o =>
    simp only [SimTrackerHit.write, keptSimTrackerHit, shapes_append, shapes_w32, shapes_w32s, shapes_w64s, shapes_wTag, shapes_wPtr, shapes_wIf, hb, hb', h.p, ifBit]
    cases ctx.bit 30 <;> simp [wIf, h.p]
  case tpcHit o =>
    simp only [TPCHit.write, keptTPCHit, shapes_append, shapes_w32, shapes_for32, shapes_wTag, shapes_wIf, hb, hb', ifBit]
    cases ctx.bit 31 <;> simp [wIf]
  case trackerRawData o =>
    simp only [TrackerRawData.write, keptTrackerRawData, shapes_append, shapes_w32, shapes_wTag, shapes_wIf, hb]
    exact List.Perm.refl _
  case trackerData o =>
    simp only [TrackerData.write, keptTrackerData, shapes_append, shapes_w32, shapes_wTag, shapes_wIf, hb]
    exact List.Perm.refl _
  case trackerPulse o =>
    simp only [TrackerPulse.write, keptTrackerPulse, shapes_append, shapes_w32, shapes_each32, shapes_wTag, shapes_wPtr, shapes_wIf, hb, hb', ifBit, h]
    cases ctx.bit 30 <;> simp [wIf, h]
  case trackerHit o =>
    simp only [TrackerHit.write, keptTrackerHit, shapes_append, shapes_w32, shapes_eachPtr, shapes_each32, shapes_w64s, shapes_wTag, shapes_wIf, hb, List.length_map]
    exact List.Perm.refl _
  case trackerHitPlane o =>
    simp only [TrackerHitPlane.write, keptTrackerHitPlane, shapes_append, shapes_w32, shapes_eachPtr, shapes_w32s, shapes_w64s, shapes_wTag, shapes_wIf, hb, List.length_map]
    exact List.Perm.refl _
  case trackerHitZCylinder o =>
    simp only [TrackerHitZCylinder.write, keptTrackerHitZCylinder, shapes_append, shapes_w32, shapes_eachPtr, shapes_w32s, shapes_w64s, shapes_wTag, shapes_wIf, hb, List.length_map]
    exact List.Perm.refl _
  case track o =>
    simp only [Track.write, keptTrack, shapes_append, shapes_w32, shapes_forPtr, shapes_for32, shapes_wTag, shapes_wIf, hb, hb', List.length_map, ifBit]
    cases ctx.bit 31 <;> simp [wIf]
  case cluster o =>
    have hp : (shapes (wFor Pid.writeData (addedInTurn std (o.pids.map fun p => { p with addr := 0 })))).Perm (shapes (wFor Pid.writeData o.pids)) := by
      refine (shapes_pids _ _ ?_ h.pids).1
      refine ((hadd.perm _ ?_).map _).trans ?_
      · rw [List.map_map]; rfl
      · rw [List.map_map]; exact List.Perm.refl _
    have hh : shapes (wIf (ctx.bit 31) (w32 (BitVec.ofNat 32 (ifBit flag 31 (o.hits.map T) []).length) ++
        writeHits ((ifBit flag 31 (o.hits.map T) []).take (loops (BitVec.ofNat 32 (ifBit flag 31 (o.hits.map T) []).length))) (ifBit flag 31 o.weights []))) =
        shapes (wIf (ctx.bit 31) (w32 (BitVec.ofNat 32 o.hits.length) ++ writeHits (o.hits.take (loops (BitVec.ofNat 32 o.hits.length))) o.weights)) := by
      unfold ifBit
      rw [hb' 31]
      cases ctx.bit 31
      · rfl
      · simp only [if_true, wIf, shapes_append, shapes_w32, List.length_map]
        rw [shapes_hits]
        simp
    simp only [Cluster.write, keptCluster, shapes_append, shapes_w32, shapes_w32s, shapes_each32, shapes_forPtr, shapes_for32, shapes_wTag, hb, List.length_map, hh]
    refine List.Perm.append_right _ (List.Perm.append_right _ (List.Perm.append_right _ (List.Perm.append_right _ (List.Perm.append_left _ hp))))
  case recoParticle o =>
    have hp : (shapes (wFor Pid.write (addedInTurn std (List.zipWith (fun p id => { p with addr := id }) o.pids ids)))).Perm (shapes (wFor Pid.write o.pids)) := by
      have hz := zip_addr0 o.pids ids hi
      refine (shapes_pids _ _ ?_ h.pids).2
      refine ((hadd.perm _ hz).map _).trans ?_
      rw [hz]
    simp only [RecoParticle.write, keptRecoParticle, shapes_append, shapes_w32, shapes_w32s, shapes_each32, shapes_forPtr, shapes_wTag, shapes_wPtr, List.length_map]
    iterate 7 refine List.Perm.append_right _ ?_
    exact List.Perm.append_left _ hp
  case relation o =>
    simp only [Relation.write, keptRelation, shapes_append, shapes_w32, shapes_wPtr, shapes_wIf, hb]
    exact List.Perm.refl _
  case vertex o =>
    simp only [Vertex.write, keptVertex, shapes_append, shapes_w32, shapes_w32s, shapes_wBool, shapes_each32, shapes_for32, shapes_wPtr, shapes_wTag]
    exact List.Perm.refl _
  case strVec l => simp only [vecWrite, shapes_append, shapes_wTag]; exact List.Perm.refl _
  case floatVec l => simp only [vecWrite, shapes_append, shapes_wTag]; exact List.Perm.refl _
  case intVec l => simp only [vecWrite, shapes_append, shapes_wTag]; exact List.Perm.refl _
  case generic o =>
    simp only [Generic.write, keptGeneric, shapes_append, shapes_wTag, hc]
    cases hx : ctx.fixed
    · exact List.Perm.refl _
    · obtain ⟨n1, n2, n3⟩ := hn hx
      rw [n1, n2, n3]

/-! ### Objects -/

/-- What is needed of the standard library. -/
structure Laws (std : Std Pid) : Prop where
  float : ∀ x, viaFloat std (viaFloat std x) = viaFloat std x
  added : ∀ l : List Pid, (∀ p ∈ l, fNaN p.likelihood = false) → (addedInTurn std l).Perm l ∧ (Descending l → addedInTurn std l = l)

theorem like_of_addr0 (l l' : List Pid) (h : (l.map fun p => { p with addr := 0 }) = (l'.map fun p => { p with addr := 0 }))
    (hl : ∀ p ∈ l', fNaN p.likelihood = false) : ∀ p ∈ l, fNaN p.likelihood = false := by
  intro p hp
  have : ({ p with addr := 0 } : Pid) ∈ l'.map fun p => { p with addr := 0 } := h ▸ List.mem_map_of_mem (f := fun p : Pid => { p with addr := 0 }) hp
  obtain ⟨q, hq, hqp⟩ := List.mem_map.1 this
  rw [show p.likelihood = q.likelihood from (congrArg Pid.likelihood hqp).symm]
  exact hl q hq

theorem Laws.adds {std : Std Pid} (hl : Laws std) (o : Obj) (h : ∀ p ∈ idsOf o, fNaN p.likelihood = false) : Added std o :=
  ⟨fun l he => (hl.added l (like_of_addr0 l _ he h)).1⟩

theorem pids_kept (std : Std Pid) (flag : W32) (T : Nat → Nat) (ids : List Nat) (o : Obj) (hi : ids.length = (pidsOf o).length) (hadd : Added std o) (ds : List Nat) :
    ((idsOf ((keptObj std flag T ids o).setD ds)).map fun p => { p with addr := 0 }).Perm ((idsOf o).map fun p => { p with addr := 0 }) ∧
    ((pidsOf ((keptObj std flag T ids o).setD ds)).map (·.addr)).Perm ids := by
  have h0 : pidsOf o = [] → ids = [] := fun h => by rw [h] at hi; exact List.length_eq_zero_iff.1 hi
  cases o <;> simp only [keptObj, Obj.setD, idsOf, pidsOf] <;>
    first
    | (rw [h0 rfl]; exact ⟨List.Perm.refl _, List.Perm.refl _⟩)
    | skip
  case cluster o =>
    rw [h0 rfl]
    refine ⟨?_, List.Perm.refl _⟩
    show ((addedInTurn std _).map _).Perm _
    refine ((hadd.perm _ ?_).map _).trans ?_
    · rw [List.map_map]; rfl
    · rw [List.map_map]; exact List.Perm.refl _
  case recoParticle o =>
    have hz := zip_addr0 o.pids ids hi
    have hp := hadd.perm _ hz
    refine ⟨?_, ?_⟩
    · refine (hp.map _).trans ?_
      rw [hz]
    · refine (hp.map _).trans ?_
      have : (List.zipWith (fun (p : Pid) id => ({ p with addr := id } : Pid)) o.pids ids).map (·.addr) = ids := by
        clear hp hz hadd h0
        simp only [pidsOf] at hi
        generalize o.pids = ps at hi
        induction ps generalizing ids with
        | nil => simp at hi; subst hi; rfl
        | cons p ps ih =>
          cases ids with
          | nil => rfl
          | cons i ids => simp [ih ids (by simpa using hi)]
      rw [this]

theorem objOk_kept (std : Std Pid) (flag : W32) (T : Nat → Nat) (ids : List Nat) (k : Kind) (o : Obj) (h : ObjOk k o) (hi : ids.length = (pidsOf o).length)
    (hadd : Added std o) (ds : List Nat) : ObjOk k ((keptObj std flag T ids o).setD ds) := by
  have hpk := (pids_kept std flag T ids o hi hadd ds).1
  have hpl := hpk.length_eq
  have hpm : (∀ p ∈ idsOf o, small p.params.length) → ∀ p ∈ idsOf ((keptObj std flag T ids o).setD ds), small p.params.length := by
    intro hq p hp
    have := hpk.subset (List.mem_map_of_mem (f := fun p : Pid => { p with addr := 0 }) hp)
    obtain ⟨q, hq', e⟩ := List.mem_map.1 this
    rw [show p.params = q.params from (congrArg Pid.params e).symm]
    exact hq q hq'
  rw [List.length_map, List.length_map] at hpl
  have hz : small 0 := by decide
  cases k <;> cases o <;> simp only [ObjOk] at h <;> simp only [keptObj, Obj.setD, ObjOk]
  case mcParticle o =>
    refine ⟨h.vertex, by simp [keptMCParticle, h.p], ?_, ?_, h.spin, h.colorFlow, by simp [keptMCParticle, h.parents]⟩
    · simp only [keptMCParticle, ifBit]; split <;> simp [h.endpoint]
    · simp only [keptMCParticle, ifBit]; split <;> simp [h.pEndpoint]
  case simCalHit o =>
    refine ⟨?_, by simp [keptSimCalHit, h.conts], ?_⟩
    · simp only [keptSimCalHit, ifBit]; split <;> simp [h.position]
    · intro c hc
      obtain ⟨c0, hc0, rfl⟩ := List.mem_map.1 hc
      simp only [keptSimCont, ifBit]; split <;> simp [h.step c0 hc0]
  case calHit o => simp only [keptCalHit, ifBit]; split <;> simp [h]
  case simTrackerHit o =>
    refine ⟨h.pos, ?_⟩
    simp only [keptSimTrackerHit, ifBit]; split <;> simp [h.p]
  case tpcHit o => simp only [keptTPCHit, ifBit]; split <;> simp [h, hz]
  case trackerRawData o => exact h
  case trackerData o => exact h
  case trackerPulse o => simp only [keptTrackerPulse, ifBit]; split <;> simp [h]
  case trackerHit o => exact ⟨h.pos, h.cov, by simp [keptTrackerHit, h.rawHits]⟩
  case trackerHitPlane o => exact ⟨h.pos, h.u, h.v, by simp [keptTrackerHitPlane, h.rawHits]⟩
  case trackerHitZCylinder o => exact ⟨h.pos, h.center, by simp [keptTrackerHitZCylinder, h.rawHits]⟩
  case track o =>
    refine ⟨h.states, h.cov, h.locations, h.hitNumbers, by simp [keptTrack, h.tracks], ?_⟩
    simp only [keptTrack, ifBit]; split <;> simp [h.hits, hz]
  case cluster o =>
    refine ⟨h.position, h.posError, h.dirError, h.shape, ?_, hpm h.params, by simp [keptCluster, h.clusters], ?_, ?_, h.energies⟩
    · exact (show (keptCluster std flag T o).pids.length = o.pids.length from hpl) ▸ h.pids
    · simp only [keptCluster, ifBit]; split <;> simp [h.hits, hz]
    · simp only [keptCluster, ifBit]; split <;> simp [h.weights]
  case recoParticle o =>
    refine ⟨by simp [keptRecoParticle, h.momentum], h.cov, h.reference, ?_, hpm h.params, by simp [keptRecoParticle, h.particles], by simp [keptRecoParticle, h.tracks],
      by simp [keptRecoParticle, h.clusters]⟩
    exact (show (keptRecoParticle std T ids o).pids.length = o.pids.length from hpl) ▸ h.pids
  case vertex o => exact ⟨h.pos, h.cov, h.params⟩
  case strVec l => exact h
  case floatVec l => exact h
  case intVec l => exact h
  case generic o => exact ⟨h.ints, h.floats, h.doubles⟩

theorem ifBit_twice {α : Type} (flag : W32) (i : Nat) (x d : α) : ifBit flag i (ifBit flag i x d) d = ifBit flag i x d := by
  unfold ifBit; split <;> rfl
theorem ifBit_map {α β : Type} (flag : W32) (i : Nat) (g : α → β) (x : List α) : (ifBit flag i x []).map g = ifBit flag i (x.map g) [] := by
  unfold ifBit; split <;> rfl

theorem zip_self (g : Nat → Nat) (ps : List Pid) :
    List.zipWith (fun (p : Pid) id => ({ p with addr := id } : Pid)) ps (ps.map fun p => g p.addr) = ps.map fun p => { p with addr := g p.addr } := by
  induction ps with
  | nil => rfl
  | cons p ps ih => simp [ih]

theorem descending_map (ps : List Pid) (g : Pid → Nat) (h : Descending ps) : Descending (ps.map fun p => { p with addr := g p }) := by
  unfold Descending
  rw [List.pairwise_map]
  exact h

/-- Storing and loading what was loaded gives the same. -/
theorem same_kept (std : Std Pid) (hl : Laws std) (flag : W32) (T T' : Nat → Nat) (h0 : T' 0 = 0) (ids : List Nat) (o : Obj) (hi : ids.length = (pidsOf o).length)
    (hnum : ∀ p ∈ idsOf o, fNaN p.likelihood = false) (ds : List Nat) (o1 : Obj) (ho1 : o1 = (keptObj std flag T ids o).setD ds) :
    SameObj T' o1 ((keptObj std flag T' ((pidsOf o1).map fun p => T' p.addr) o1).setD (ds.map T')) := by
  have hpk := (pids_kept std flag T ids o hi (hl.adds o hnum) ds).1
  rw [← ho1] at hpk
  have hnum1 : ∀ p ∈ idsOf o1, fNaN p.likelihood = false := by
    intro p hp
    have := hpk.subset (List.mem_map_of_mem (f := fun p : Pid => { p with addr := 0 }) hp)
    obtain ⟨q, hq', e⟩ := List.mem_map.1 this
    rw [show p.likelihood = q.likelihood from (congrArg Pid.likelihood e).symm]
    exact hnum q hq'
  have hff := hl.float
  have triv : ∀ o2 : Obj, idsOf o1 = [] → (∀ ps, setPids ps (o1.mapPtr T') = o1.mapPtr T') → o2 = o1.mapPtr T' → SameObj T' o1 o2 := by
    intro o2 e1 e2 e3
    refine ⟨[], by rw [e2, e3], by rw [e1]; exact List.Perm.refl _, fun _ => by rw [e1]; rfl⟩
  cases o
  case cluster o =>
    have haddr : ∀ p ∈ idsOf o1, p.addr = 0 := by
      intro p hp
      subst ho1
      have hp' : p ∈ o.pids.map fun p => { p with addr := 0 } :=
        (hl.added (o.pids.map fun p => { p with addr := 0 }) (like_of_addr0 _ o.pids (by rw [List.map_map]; rfl) hnum)).1.subset hp
      obtain ⟨q, _, rfl⟩ := List.mem_map.1 hp'
      rfl
    have hm : (idsOf o1).map (fun p => { p with addr := T' p.addr }) = (idsOf o1).map fun p => { p with addr := 0 } := by
      refine List.map_congr_left fun p hp => ?_
      rw [haddr p hp, h0]
    subst ho1
    have ha := hl.added ((idsOf ((keptObj std flag T ids (.cluster o)).setD ds)).map fun p => { p with addr := 0 })
      (like_of_addr0 _ _ (by rw [List.map_map]; rfl) hnum1)
    refine ⟨addedInTurn std ((idsOf ((keptObj std flag T ids (.cluster o)).setD ds)).map fun p => { p with addr := 0 }), ?_, by rw [hm]; exact ha.1,
      fun hd => by rw [hm]; exact ha.2 (descending_map _ _ hd)⟩
    simp only [keptObj, Obj.setD, Obj.mapPtr, setPids, keptCluster, Cluster.mapPtr, idsOf, ifBit_map, ifBit_twice, List.map_map]
  case recoParticle o =>
    subst ho1
    have ha := hl.added ((idsOf ((keptObj std flag T ids (.recoParticle o)).setD ds)).map fun p => { p with addr := T' p.addr })
      (like_of_addr0 _ _ (by rw [List.map_map]; rfl) hnum1)
    refine ⟨_, ?_, ha.1, fun hd => ha.2 (descending_map _ _ hd)⟩
    simp only [keptObj, Obj.setD, pidsOf, idsOf, Obj.mapPtr, setPids, keptRecoParticle, RecoParticle.mapPtr, zip_self, List.map_map, hff]
    congr 2
    exact List.map_congr_left fun x _ => hff x
  all_goals
    refine triv _ (by subst ho1; rfl) (by subst ho1; intro ps; rfl) ?_
    subst ho1
    simp only [keptObj, Obj.setD, Obj.mapPtr]
  case mcParticle o =>
    simp only [keptMCParticle, MCParticle.mapPtr, hff, List.map_map, ifBit_twice]
    congr 2
    · unfold ifBit
      split
      · rw [List.map_map]; exact List.map_congr_left fun x _ => hff x
      · rfl
    · exact List.map_congr_left fun x _ => hff x
  case simCalHit o =>
    simp only [keptSimCalHit, SimCalHit.mapPtr, ifBit_twice, List.map_map]
    congr 2
    refine List.map_congr_left fun x _ => ?_
    simp only [Function.comp, keptSimCont, SimCont.mapPtr, ifBit_twice]
  case rawCalHit o => simp only [keptRawCalHit, ifBit_twice]
  case calHit o => simp only [keptCalHit, CalHit.mapPtr, ifBit_twice]
  case simTrackerHit o => simp only [keptSimTrackerHit, SimTrackerHit.mapPtr, ifBit_twice]
  case tpcHit o => simp only [keptTPCHit, ifBit_twice]
  case trackerRawData o => simp only [keptTrackerRawData, ifBit_twice]
  case trackerData o => simp only [keptTrackerData, ifBit_twice]
  case trackerPulse o => simp only [keptTrackerPulse, TrackerPulse.mapPtr, ifBit_twice]
  case trackerHit o => simp only [keptTrackerHit, TrackerHit.mapPtr, ifBit_twice]
  case trackerHitPlane o => simp only [keptTrackerHitPlane, TrackerHitPlane.mapPtr, ifBit_twice]
  case trackerHitZCylinder o => simp only [keptTrackerHitZCylinder, TrackerHitZCylinder.mapPtr, ifBit_twice]
  case track o => simp only [keptTrack, Track.mapPtr, ifBit_map, ifBit_twice]
  case relation o => simp only [keptRelation, Relation.mapPtr, ifBit_twice]
  case vertex o =>
    simp only [keptVertex, Vertex.mapPtr]
    split <;> rfl
  case generic o => rfl

end Lcio
