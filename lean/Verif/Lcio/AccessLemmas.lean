import Verif.Spec.Access
/-
Lemmas about access modes.
-/
namespace Lcio
open Sio Spec

/-- Set the mark of an element. -/
def markObj (ro : Bool) (o : Option (Obj × Bool)) : Option (Obj × Bool) := o.map fun o => if o.1.accessChecked then (o.1, ro) else o

theorem markObj_markObj (ro : Bool) (o : Option (Obj × Bool)) : markObj ro (markObj ro o) = markObj ro o := by
  cases o with
  | none => rfl
  | some o =>
    simp only [markObj, Option.map_some]
    by_cases h : o.1.accessChecked <;> simp [h]

theorem setElement_objs (m : Live) (ro : Bool) (a b : Nat) : (m.setElement ro a).objs b = if b = a then markObj ro (m.objs b) else m.objs b := by
  by_cases h : b = a
  · subst h; simp [Live.setElement, markObj]
  · simp [Live.setElement, h]

theorem setElements (ro : Bool) (l : List Nat) : ∀ m : Live,
    (l.foldl (·.setElement ro ·) m).cols = m.cols ∧ (l.foldl (·.setElement ro ·) m).event = m.event ∧ (l.foldl (·.setElement ro ·) m).head = m.head ∧
    ∀ b, (l.foldl (·.setElement ro ·) m).objs b = if b ∈ l then markObj ro (m.objs b) else m.objs b := by
  induction l with
  | nil => intro m; simp
  | cons a l ih =>
    intro m
    obtain ⟨h1, h2, h3, h4⟩ := ih (m.setElement ro a)
    refine ⟨h1, h2, h3, fun b => ?_⟩
    simp only [List.foldl_cons, h4 b, setElement_objs, List.mem_cons]
    by_cases h : b = a
    · subst h; by_cases h' : b ∈ l <;> simp [h', markObj_markObj]
    · simp [h]

/-- Set the mark of a collection. -/
def markCol (ro : Bool) (c : Option (ColObj × Bool)) : Option (ColObj × Bool) := c.map fun k => (k.1, ro)

/-- The element is in the collection. -/
def InCol (m : Live) (c a : Nat) : Prop := ∃ k, m.cols c = some k ∧ a ∈ k.1.elems

open Classical in
theorem setCollection_all (m : Live) (ro : Bool) (c : Nat) :
    (m.setCollection ro c).event = m.event ∧ (m.setCollection ro c).head = m.head ∧
    (∀ b, (m.setCollection ro c).cols b = if b = c then markCol ro (m.cols b) else m.cols b) ∧
    ∀ a, (m.setCollection ro c).objs a = if InCol m c a then markObj ro (m.objs a) else m.objs a := by
  unfold Live.setCollection
  cases hc : m.cols c with
  | none =>
    refine ⟨rfl, rfl, fun b => ?_, fun a => ?_⟩
    · by_cases h : b = c
      · subst h; simp [hc, markCol]
      · simp [h]
    · have : ¬ InCol m c a := by rintro ⟨k, hk, -⟩; rw [hc] at hk; cases hk
      simp [this]
  | some k =>
    obtain ⟨k, r⟩ := k
    obtain ⟨h1, h2, h3, h4⟩ := setElements ro k.elems { m with cols := fun b => if b = c then some (k, ro) else m.cols b }
    refine ⟨h2, h3, fun b => ?_, fun a => ?_⟩
    · refine (congrFun h1 b).trans ?_
      by_cases h : b = c
      · subst h; simp [hc, markCol]
      · simp [h]
    · refine (h4 a).trans ?_
      have : InCol m c a ↔ a ∈ k.elems := by
        constructor
        · rintro ⟨k', hk', h⟩; rw [hc] at hk'; cases hk'; exact h
        · exact fun h => ⟨_, hc, h⟩
      by_cases h : a ∈ k.elems
      · rw [if_pos h, if_pos (this.mpr h)]
      · rw [if_neg h, if_neg (fun x => h (this.mp x))]

theorem setCollection_inCol (m : Live) (ro : Bool) (c d a : Nat) : InCol (m.setCollection ro c) d a ↔ InCol m d a := by
  obtain ⟨-, -, h, -⟩ := setCollection_all m ro c
  unfold InCol
  rw [h d]
  by_cases hd : d = c
  · rw [if_pos hd]
    cases hm : m.cols d with
    | none => simp [markCol]
    | some k => simp [markCol]
  · rw [if_neg hd]

open Classical in
theorem setCollections (ro : Bool) (l : List Nat) : ∀ m : Live,
    (l.foldl (·.setCollection ro ·) m).event = m.event ∧ (l.foldl (·.setCollection ro ·) m).head = m.head ∧
    (∀ b, (l.foldl (·.setCollection ro ·) m).cols b = if b ∈ l then markCol ro (m.cols b) else m.cols b) ∧
    ∀ a, (l.foldl (·.setCollection ro ·) m).objs a = if ∃ c ∈ l, InCol m c a then markObj ro (m.objs a) else m.objs a := by
  induction l with
  | nil => intro m; simp
  | cons c l ih =>
    intro m
    obtain ⟨h1, h2, h3, h4⟩ := ih (m.setCollection ro c)
    obtain ⟨g1, g2, g3, g4⟩ := setCollection_all m ro c
    refine ⟨h1.trans g1, h2.trans g2, fun b => ?_, fun a => ?_⟩
    · simp only [List.foldl_cons, h3 b, g3 b, List.mem_cons]
      by_cases h : b = c
      · subst h
        have : markCol ro (markCol ro (m.cols b)) = markCol ro (m.cols b) := by cases m.cols b <;> rfl
        by_cases h' : b ∈ l <;> simp [h', this]
      · simp [h]
    · simp only [List.foldl_cons, h4 a, g4 a, setCollection_inCol]
      by_cases hc : InCol m c a <;> by_cases hl : ∃ d ∈ l, InCol m d a
      · rw [if_pos hl, if_pos hc, if_pos ⟨c, List.mem_cons_self, hc⟩, markObj_markObj]
      · rw [if_neg hl, if_pos hc, if_pos ⟨c, List.mem_cons_self, hc⟩]
      · obtain ⟨d, hd, hd'⟩ := hl
        rw [if_pos ⟨d, hd, hd'⟩, if_neg hc, if_pos ⟨d, List.mem_cons_of_mem _ hd, hd'⟩]
      · rw [if_neg hl, if_neg hc, if_neg]
        rintro ⟨d, hd, hd'⟩
        rcases List.mem_cons.mp hd with h | h
        · subst h; exact hc hd'
        · exact hl ⟨d, h, hd'⟩

/-- What `setAccessMode` does. -/
theorem setAccessMode_event (m : Live) (w : W32) : (m.setAccessMode w).event = { m.event with readOnly := w == 0 } := (setCollections _ _ _).1
theorem setAccessMode_head (m : Live) (w : W32) : (m.setAccessMode w).head = m.head := (setCollections _ _ _).2.1
theorem setAccessMode_col (m : Live) (w : W32) (n : Str) (c : Nat) (h : (n, c) ∈ m.event.colMap) :
    (m.setAccessMode w).cols c = markCol (w == 0) (m.cols c) := by
  have := (setCollections (w == 0) (m.event.colMap.map (·.2)) { m with event := { m.event with readOnly := w == 0 } }).2.2.1 c
  rw [if_pos (List.mem_map.mpr ⟨_, h, rfl⟩)] at this
  exact this
theorem setAccessMode_obj (m : Live) (w : W32) (n : Str) (c : Nat) (h : (n, c) ∈ m.event.colMap) (k : ColObj × Bool) (hk : m.cols c = some k)
    (a : Nat) (ha : a ∈ k.1.elems) : (m.setAccessMode w).objs a = markObj (w == 0) (m.objs a) := by
  have := (setCollections (w == 0) (m.event.colMap.map (·.2)) { m with event := { m.event with readOnly := w == 0 } }).2.2.2 a
  rw [if_pos ⟨c, List.mem_map.mpr ⟨_, h, rfl⟩, k, hk, ha⟩] at this
  exact this

/-! ## Refused calls -/

theorem mcParticle_refused (std : Std Pid) (o : MCParticle) (s : MCParticle.Setter) (h : mCParticleUnchecked s = false) :
    o.change std true s = .error .readOnly := by cases s <;> first | rfl | simp [mCParticleUnchecked] at h
theorem simCalHit_refused (o : SimCalHit) (s : SimCalHit.Setter) : o.change true s = .error .readOnly := by cases s <;> rfl
theorem calHit_refused (o : CalHit) (s : CalHit.Setter) : o.change true s = .error .readOnly := by cases s <;> rfl
theorem rawCalHit_refused (o : RawCalHit) (s : RawCalHit.Setter) : o.change true s = .error .readOnly := by cases s <;> rfl
theorem simTrackerHit_refused (o : SimTrackerHit) (s : SimTrackerHit.Setter) : o.change true s = .error .readOnly := by cases s <;> rfl
theorem trackerHit_refused (o : TrackerHit) (s : TrackerHit.Setter) : o.change true s = .error .readOnly := by cases s <;> rfl
theorem trackerHitPlane_refused (o : TrackerHitPlane) (s : TrackerHitPlane.Setter) (h : trackerHitPlaneUnchecked s = false) :
    o.change true s = .error .readOnly := by cases s <;> first | rfl | simp [trackerHitPlaneUnchecked] at h
theorem trackerHitZCylinder_refused (o : TrackerHitZCylinder) (s : TrackerHitZCylinder.Setter) (h : trackerHitZCylinderUnchecked s = false) :
    o.change true s = .error .readOnly := by cases s <;> first | rfl | simp [trackerHitZCylinderUnchecked] at h
theorem trackerRawData_refused (o : TrackerRawData) (s : TrackerRawData.Setter) : o.change true s = .error .readOnly := by cases s <;> rfl
theorem trackerData_refused (o : TrackerData) (s : TrackerData.Setter) : o.change true s = .error .readOnly := by cases s <;> rfl
theorem trackerPulse_refused (o : TrackerPulse) (s : TrackerPulse.Setter) : o.change true s = .error .readOnly := by cases s <;> rfl
theorem tPCHit_refused (o : TPCHit) (s : TPCHit.Setter) (h : tPCHitUnchecked s = false) : o.change true s = .error .readOnly := by
  cases s <;> first | rfl | simp [tPCHitUnchecked] at h
theorem track_refused (o : Track) (s : Track.Setter) (h : trackUnchecked s = false) : o.change true s = .error .readOnly := by
  cases s <;> first | rfl | simp [trackUnchecked] at h
theorem cluster_refused (std : Std Pid) (o : Cluster) (s : Cluster.Setter) (h : clusterUnchecked s = false) : o.change std true s = .error .readOnly := by
  cases s <;> first | rfl | simp [clusterUnchecked] at h
theorem recoParticle_refused (std : Std Pid) (o : RecoParticle) (s : RecoParticle.Setter) (h : recoParticleUnchecked s = false) :
    o.change std true s = .error .readOnly := by cases s <;> first | rfl | simp [recoParticleUnchecked] at h
theorem vertex_refused (o : Vertex) (s : Vertex.Setter) : o.change true s = .error .readOnly := by cases s <;> rfl
theorem eventHeader_refused (std : Std Pid) (o : EventHeader) (s : EventHeader.Setter) (h : eventHeaderUnchecked s = false) :
    o.change std true s = .error .readOnly := by cases s <;> first | rfl | simp [eventHeaderUnchecked] at h
theorem colObj_refused (o : ColObj) (s : ColObj.Setter) (h : colObjUnchecked s = false) : o.change true s = .error .readOnly := by
  cases s <;> first | rfl | simp [colObjUnchecked] at h

theorem obj_refused (std : Std Pid) (o : Obj) (s : ObjSetter) (h : guarded s = true) (hc : Callable o s) :
    o.change std true s = some (.error .readOnly) ∧ o.accessChecked = true := by
  obtain ⟨std', r, hr⟩ := hc
  cases s <;> simp only [guarded, Bool.not_eq_true', reduceCtorEq] at h <;> cases o <;> simp only [Obj.change, reduceCtorEq] at hr <;>
    refine ⟨?_, rfl⟩ <;> simp only [Obj.change]
  · rw [mcParticle_refused std _ _ h]; rfl
  · rw [simCalHit_refused]; rfl
  · rw [rawCalHit_refused]; rfl
  · rw [calHit_refused]; rfl
  · rw [simTrackerHit_refused]; rfl
  · rw [tPCHit_refused _ _ h]; rfl
  · rw [trackerRawData_refused]; rfl
  · rw [trackerData_refused]; rfl
  · rw [trackerPulse_refused]; rfl
  · rw [trackerHit_refused]; rfl
  · rw [trackerHitPlane_refused _ _ h]; rfl
  · rw [trackerHitZCylinder_refused _ _ h]; rfl
  · rw [track_refused _ _ h]; rfl
  · rw [cluster_refused std _ _ h]; rfl
  · rw [recoParticle_refused std _ _ h]; rfl
  · rw [vertex_refused]; rfl

/-- The functions that do not look at the access mode. -/
theorem obj_unguarded (std : Std Pid) (o : Obj) (s : ObjSetter) (h : guarded s = false) : o.change std true s = o.change std false s := by
  cases s with
  | mcParticle s => cases o <;> first | rfl | (simp only [Obj.change]; cases s <;> first | rfl | simp [guarded, mCParticleUnchecked] at h)
  | tpcHit s => cases o <;> first | rfl | (simp only [Obj.change]; cases s <;> first | rfl | simp [guarded, tPCHitUnchecked] at h)
  | trackerHitPlane s => cases o <;> first | rfl | (simp only [Obj.change]; cases s <;> first | rfl | simp [guarded, trackerHitPlaneUnchecked] at h)
  | trackerHitZCylinder s => cases o <;> first | rfl | (simp only [Obj.change]; cases s <;> first | rfl | simp [guarded, trackerHitZCylinderUnchecked] at h)
  | track s => cases o <;> first | rfl | (simp only [Obj.change]; cases s <;> first | rfl | simp [guarded, trackUnchecked] at h)
  | cluster s => cases o <;> first | rfl | (simp only [Obj.change]; cases s <;> first | rfl | simp [guarded, clusterUnchecked] at h)
  | recoParticle s => cases o <;> first | rfl | (simp only [Obj.change]; cases s <;> first | rfl | simp [guarded, recoParticleUnchecked] at h)
  | _ => first | (simp [guarded] at h; done) | (cases o <;> rfl)

theorem guarded_call (std : Std Pid) (m : Live) (c : LiveCall) (h : Guarded m c) :
    (m.setAccessMode 0).call std c = (some .readOnly, m.setAccessMode 0) := by
  have ro : (m.setAccessMode 0).event.readOnly = true := by rw [setAccessMode_event]; rfl
  cases c with
  | event s => simp only [Live.call, ro, eventHeader_refused std _ s h]
  | add _ _ => exact absurd h id
  | remove n => simp only [Live.call, EventObj.removeCollection, ro, if_true]
  | collection c s =>
    obtain ⟨⟨n, hn⟩, hs, hu⟩ := h
    obtain ⟨k, hk⟩ := Option.isSome_iff_exists.mp hs
    have : (m.setAccessMode 0).cols c = some (k.1, true) := by rw [setAccessMode_col m 0 n c hn, hk]; rfl
    simp only [Live.call, this, colObj_refused _ s hu]
  | element a s =>
    obtain ⟨hg, n, c, k, hn, hk, ha, o, ho, hc⟩ := h
    obtain ⟨h1, h2⟩ := obj_refused std o.1 s hg hc
    have : (m.setAccessMode 0).objs a = some (o.1, true) := by
      rw [setAccessMode_obj m 0 n c hn k hk a ha, ho]
      simp only [markObj, Option.map_some, h2, if_true]
      rfl
    simp only [Live.call, this, h1]

end Lcio
