import Verif.Lcio.CopyLemmas5
/-
Being the same event at another place is transitive.
-/
namespace Lcio
open Sio Spec

theorem mapPtr_mapPtr (T T' : Nat → Nat) (o : Obj) : (o.mapPtr T).mapPtr T' = o.mapPtr (T' ∘ T) := by
  cases o <;> simp [Obj.mapPtr, MCParticle.mapPtr, SimCalHit.mapPtr, SimCont.mapPtr, CalHit.mapPtr, SimTrackerHit.mapPtr, TrackerHit.mapPtr, TrackerHitPlane.mapPtr,
    TrackerHitZCylinder.mapPtr, TrackerPulse.mapPtr, Track.mapPtr, Cluster.mapPtr, RecoParticle.mapPtr, Vertex.mapPtr, Relation.mapPtr, Function.comp_def]

theorem mapPtr_setPids (T : Nat → Nat) (ps : List Pid) (o : Obj) : (setPids ps o).mapPtr T = setPids ps (o.mapPtr T) := by cases o <;> rfl
theorem setPids_setPids (ps qs : List Pid) (o : Obj) : setPids ps (setPids qs o) = setPids ps o := by cases o <;> rfl
theorem idsOf_mapPtr (T : Nat → Nat) (o : Obj) : idsOf (o.mapPtr T) = idsOf o := by cases o <;> rfl

theorem idsOf_same {T : Nat → Nat} {o : Obj} {ps : List Pid} (h : ps.Perm ((idsOf o).map fun p => { p with addr := T p.addr })) : idsOf (setPids ps (o.mapPtr T)) = ps := by
  have h0 : idsOf o = [] → ps = [] := fun h' => by rw [h'] at h; exact h.eq_nil
  cases o <;> first | rfl | exact (h0 rfl).symm

theorem _root_.Spec.SameObj.trans {T T' : Nat → Nat} {o o1 o2 : Obj} (h : SameObj T o o1) (h' : SameObj T' o1 o2) : SameObj (T' ∘ T) o o2 := by
  obtain ⟨ps, rfl, h1, h2⟩ := h
  obtain ⟨qs, rfl, h3, h4⟩ := h'
  rw [idsOf_same h1] at h3 h4
  have hm : ∀ l : List Pid, (l.map fun p => ({ p with addr := T p.addr } : Pid)).map (fun p => { p with addr := T' p.addr }) = l.map fun p => { p with addr := (T' ∘ T) p.addr } := fun l => by
    rw [List.map_map]; rfl
  refine ⟨qs, by rw [mapPtr_setPids, setPids_setPids, mapPtr_mapPtr], ?_, fun hd => ?_⟩
  · rw [← hm]; exact h3.trans (h1.map _)
  · have h2' := h2 hd
    rw [← hm, ← h2']
    exact h4 (by rw [h2']; exact descending_map _ (fun p => T p.addr) hd)

theorem pidsOf_same {T : Nat → Nat} {o o1 : Obj} (h : SameObj T o o1) : ((pidsOf o1).map (·.addr)).Perm (((pidsOf o).map (·.addr)).map T) := by
  obtain ⟨ps, rfl, h1, -⟩ := h
  cases o <;> first
    | exact List.Perm.refl _
    | (simp only [idsOf] at h1
       simp only [pidsOf, setPids, Obj.mapPtr]
       have := h1.map (·.addr)
       rw [List.map_map] at this ⊢
       exact this)

theorem _root_.Spec.SameCol.kind {T : Nat → Nat} {c c1 : Str × Collection} (h : SameCol T c c1) : kindD c1.2 = kindD c.2 := by unfold kindD; rw [h.type]

theorem _root_.Spec.SameCol.trans {T T' : Nat → Nat} {c c1 c2 : Str × Collection} (h : SameCol T c c1) (h' : SameCol T' c1 c2) : SameCol (T' ∘ T) c c2 := by
  refine ⟨h'.name.trans h.name, h'.type.trans h.type, h'.flag.trans h.flag, h'.params.trans h.params, ?_⟩
  refine ⟨h.elems.1.trans h'.elems.1, fun i e e2 he he2 => ?_⟩
  have hlt : i < c1.2.elems.length := by rw [← h.elems.1]; exact (List.getElem?_eq_some_iff.1 he).1
  have h1 := h.elems.2 i e _ he (List.getElem?_eq_getElem hlt)
  have h2 := h'.elems.2 i _ e2 (List.getElem?_eq_getElem hlt) he2
  generalize c1.2.elems[i] = e1 at h1 h2
  simp only [h.flag, h.kind] at h2
  cases hb : c.2.flag.getLsbD 18
  · simp only [hb, Bool.false_eq_true, if_false] at h1 h2 ⊢
    obtain ⟨a1, o, o1, b1, b2, b3⟩ := h1
    obtain ⟨a2, o1', o2, d1, d2, d3⟩ := h2
    rw [b2, Option.some.injEq] at d1
    subst d1
    exact ⟨fun hc => by rw [a2 hc, a1 hc]; rfl, o, o2, b1, d2, Spec.SameObj.trans b3 d3⟩
  · simp only [hb, if_true] at h1 h2 ⊢
    rw [h2, h1]; rfl

theorem _root_.Spec.SameCol.tagged {T : Nat → Nat} {c c1 : Str × Collection} (h : SameCol T c c1) : (Spec.tagged c1.2.flag (kindD c1.2) c1.2.elems).Perm ((Spec.tagged c.2.flag (kindD c.2) c.2.elems).map T) := by
  rw [h.flag, h.kind]
  unfold Spec.tagged
  have he := h.elems
  cases hb : c.2.flag.getLsbD 18
  · simp only [hb, Bool.false_eq_true, if_false] at he ⊢
    generalize canPointAt c.2.flag (kindD c.2) = cp at he
    generalize c.2.elems = l at he
    generalize c1.2.elems = l' at he
    clear h
    induction l generalizing l' with
    | nil =>
      obtain rfl : l' = [] := List.length_eq_zero_iff.1 he.1.symm
      exact List.Perm.refl _
    | cons e l ih =>
      obtain ⟨e', l', rfl, ⟨h1, o, o', h2, h3, h4⟩, h5⟩ := he.cons_inv
      rw [List.flatMap_cons, List.flatMap_cons, List.map_append, List.map_append]
      refine ((List.Perm.append ?_ ?_)).append (ih l' h5)
      · rw [h2, h3]; exact pidsOf_same h4
      · cases cp
        · exact List.Perm.refl _
        · rw [if_pos rfl, h1 rfl]; exact List.Perm.refl _
  · simp only [if_true]
    exact List.Perm.refl _

theorem tagged_same {T : Nat → Nat} {cols cols1 : List (Str × Collection)} (h : All2 (SameCol T) cols cols1) : (allTagged cols1).Perm ((allTagged cols).map T) := by
  induction cols generalizing cols1 with
  | nil =>
    obtain rfl : cols1 = [] := List.length_eq_zero_iff.1 h.1.symm
    exact List.Perm.refl _
  | cons c cols ih =>
    obtain ⟨c1, cols1, rfl, h1, h2⟩ := h.cons_inv
    unfold allTagged
    rw [List.flatMap_cons, List.flatMap_cons, List.map_append]
    exact h1.tagged.append (ih h2)

theorem _root_.Spec.SameEvent.trans {h h1 h2 : EventHeader} {cols cols1 cols2 : List (Str × Collection)} (a : SameEvent h h1 cols cols1) (b : SameEvent h1 h2 cols1 cols2) : SameEvent h h2 cols cols2 := by
  obtain ⟨T, pT, hT⟩ := a.cols
  obtain ⟨T', pT', hT'⟩ := b.cols
  refine ⟨b.run.trans a.run, b.evt.trans a.evt, b.time.trans a.time, b.det.trans a.det, b.ints.trans a.ints, b.floats.trans a.floats, b.strs.trans a.strs, T' ∘ T, ?_, ?_⟩
  · have hp := tagged_same hT
    have hm : ∀ x ∈ allTagged cols, T x ∈ allTagged cols1 := fun x hx => hp.mem_iff.2 (List.mem_map_of_mem hx)
    have h0 : T' 0 = 0 := by
      refine pT'.null 0 fun h0 => ?_
      obtain ⟨x, hx, hx0⟩ := List.mem_map.1 (hp.mem_iff.1 h0)
      exact pT.nonNull x hx hx0
    refine ⟨fun x hx => ?_, fun x hx => pT'.nonNull _ (hm x hx), fun x hx y hy hxy => pT.distinct x hx y hy (pT'.distinct _ (hm x hx) _ (hm y hy) hxy)⟩
    show T' (T x) = 0
    rw [pT.null x hx, h0]
  · refine ⟨hT.1.trans hT'.1, fun i c c2 hc hc2 => ?_⟩
    have hlt : i < cols1.length := by rw [← hT.1]; exact (List.getElem?_eq_some_iff.1 hc).1
    exact (hT.2 i c _ hc (List.getElem?_eq_getElem hlt)).trans (hT'.2 i _ c2 (List.getElem?_eq_getElem hlt) hc2)

end Lcio
