import Verif.Props.Headers
import Verif.Lcio.EventProofs
/-
Storing and loading events with all kinds of objects: C39 to C44.
-/
namespace Props
open Sio Spec Lcio

theorem noPostfix (type : Str) (k : Kind) (h : kindOf type = some k) : ¬ occursIn (str "_References") type := by
  intro ho
  obtain ⟨a, b, rfl⟩ := ho
  unfold kindOf at h
  rw [Option.map_eq_some_iff] at h
  obtain ⟨x, hx, _⟩ := h
  have h2 := List.mem_of_find?_eq_some hx
  have h3 := List.find?_some hx
  rw [beq_iff_eq] at h3
  have h4 : ∀ y ∈ handlers, (0x5f : Byte) ∉ y.1 := by decide +kernel
  apply h4 x h2
  rw [h3, List.mem_append, List.mem_append]
  exact Or.inl (Or.inr (by decide))

theorem event_loaded (std : Std Pid) (ignoreNull : Bool) (only wanted : List Str) (h : EventHeader) (cols : List (Str × Collection))
    (hs : Storable std ignoreNull only wanted h cols) (buf : Str × Str) (opts : W32) (next : Nat) (hnext : 0 < next) :
    ∃ h' L T, storeLoadEvent std ignoreNull only wanted buf opts next h cols = .ok (h', withDaughters (kids L) L) ∧
      (h'.run = h.run ∧ h'.evt = h.evt ∧ h'.time = h.time ∧ h'.det = h.det ∧
        h'.params.ints = h.params.ints ∧ h'.params.floats = h.params.floats ∧ h'.params.strs = h.params.strs) ∧
      Pointers (wantedCols wanted (storedCols only cols)) T ∧ All2 (LoadedAs std T) (wantedCols wanted (storedCols only cols)) L := by
  have hst : stored only { h with cols := colHeads cols } = (storedCols only cols).map fun c => (c.1, ⟨c.2.type, c.2.flag⟩) := by
    unfold stored storedCols colHeads
    simp only [List.filter_map]
    rfl
  obtain ⟨h', e1, e2, e3, e4, e5, e6, e7, e8, e9⟩ := C38_event_header_round_trip_partial { h with cols := colHeads cols } only wanted hs.header
    (by
      intro c hc _
      rw [hst, List.mem_map] at hc
      obtain ⟨c, hc, rfl⟩ := hc
      exact noPostfix _ _ (hs.event.stored c hc).kind)
    hs.headerSize buf.1 opts next
  have hheads : h'.cols.map (fun c => (c.1, c.2.type)) =
      ((storedCols only cols).filter fun c => wanted.isEmpty || wanted.contains c.1).map (fun c => (c.1, c.2.type)) := by
    rw [e9, hst, List.filter_map, List.map_map]; rfl
  obtain ⟨info, bytes, results, ρ, dev, T, f1, f2, f3, f4⟩ := eventRecord_ok std only (fun n => wanted.isEmpty || wanted.contains n) cols hs.event buf.2 opts
    next hnext h'.cols hheads
  change Pointers (wantedCols wanted (storedCols only cols)) T at f4
  change All2 (LoadedAs std T) (wantedCols wanted (storedCols only cols)) _ at f3
  change _ = (wantedCols wanted (storedCols only cols)).map _ at hheads
  generalize hL : results.map (fun c => (c.1, c.2.mapPtr ρ)) = L at f3
  have hok : ∀ c ∈ wantedCols wanted (storedCols only cols), CollectionOk std (kindD c.2) c.2 :=
    fun c hc => hs.event.stored c (List.mem_filter.1 hc).1
  have hnd : (allTagged (wantedCols wanted (storedCols only cols))).Nodup := by
    refine hs.event.addresses.sublist ?_
    unfold allTagged wantedCols
    generalize storedCols only cols = cs
    induction cs with
    | nil => exact List.Sublist.refl _
    | cons c cs ih =>
      rw [List.filter_cons]
      split
      · rw [List.flatMap_cons, List.flatMap_cons]
        exact List.Sublist.append (List.Sublist.refl _) ih
      · rw [List.flatMap_cons]
        exact ih.trans (List.sublist_append_right _ _)
  have hfit := loaded_fit f3 hok f4 hnd hs.parents
  have hnames : ((wantedCols wanted (storedCols only cols)).map (·.1)).Nodup :=
    (storedCols_names only cols hs.event.names).sublist (List.filter_sublist.map _)
  have hLn : L.map (·.1) = (wantedCols wanted (storedCols only cols)).map (·.1) := f3.map_eq _ _ fun a _ b _ hab => hab.1
  refine ⟨h', L, T, ?_, ⟨e2, e3, e4, e5, e6, e7, e8⟩, f4, f3⟩
  unfold storeLoad at e1
  unfold storeLoadEvent writeEvent
  cases hw : writeRecord headerRecordName buf.1 [EventHeader.block only { h with cols := colHeads cols }] opts with
  | error e => rw [hw] at e1; cases e1
  | ok x =>
    obtain ⟨i1, b1⟩ := x
    rw [hw] at e1
    simp only at e1 ⊢
    rw [f1]
    simp only
    unfold readEvent
    cases hr : readBlocks (b1.drop i1.headerLength) [headerDecoder wanted] next with
    | error e => rw [hr] at e1; cases e1
    | ok y =>
      obtain ⟨hs', ρ', dev'⟩ := y
      rw [hr] at e1
      simp only [Except.ok.injEq] at e1
      subst e1
      simp only
      rw [f2]
      simp only
      rw [hL, filled_eq h'.cols _ L hnames hLn hheads]
      unfold postProcess
      rw [restoreRelations_ok L hfit (loaded_daughters f3 hok)]
      simp only
      rw [if_neg]
      rcases hs.subsets with hi | hsub
      · simp [hi]
      · rw [subsets_ok f3 hok f4 hsub]
        simp

/-- The final collections, for any relation `R` of elements. -/
theorem event_final (std : Std Pid) (ignoreNull : Bool) (only wanted : List Str) (h : EventHeader) (cols : List (Str × Collection))
    (hs : Storable std ignoreNull only wanted h cols) (buf : Str × Str) (opts : W32) (next : Nat) (hnext : 0 < next)
    (R : (Nat → Nat) → W32 → Elem → Elem → Prop)
    (hR : ∀ T flag flag' k e e' o D, Pointers (wantedCols wanted (storedCols only cols)) T → e.obj = some o → ObjOk k o → (k ≠ .generic → flag' = flag) →
      e'.obj = some (keptObj std flag' T ((pidsOf o).map fun p => T p.addr) o) → (canPointAt flag k = true → e'.addr = T e.addr) →
      (k = .mcParticle → e ∈ mcElems (wantedCols wanted (storedCols only cols)) ∧
        D (T e.addr) = (childrenOf (mcElems (wantedCols wanted (storedCols only cols))) e.addr).map T) →
      R T flag e (Elem.withD D e')) :
    ∃ h' cols' T, storeLoadEvent std ignoreNull only wanted buf opts next h cols = .ok (h', cols') ∧
      LoadedEvent (wantedCols wanted (storedCols only cols)) h h' cols' T (R T) := by
  obtain ⟨h', L, T, e1, e2, e3, e4⟩ := event_loaded std ignoreNull only wanted h cols hs buf opts next hnext
  have hok : ∀ c ∈ wantedCols wanted (storedCols only cols), CollectionOk std (kindD c.2) c.2 :=
    fun c hc => hs.event.stored c (List.mem_filter.1 hc).1
  have hpar := hs.parents
  generalize wantedCols wanted (storedCols only cols) = W at *
  have hmcp : ∀ e ∈ mcElems W, ∀ p ∈ parentsOf e, p ∈ allTagged W := by
    intro e he p hp
    obtain ⟨c, hc, hm, hec⟩ := mem_mcElems.1 he
    obtain ⟨pre, post, hW⟩ := List.append_of_mem hc
    have := hpar pre c post hW hm e hec p hp
    apply (mcAddrs_tagged hok).subset
    rw [hW]
    unfold mcAddrs at this ⊢
    simp only [List.flatMap_append, List.flatMap_cons, List.flatMap_nil, List.append_nil, List.mem_append] at this ⊢
    rcases this with h | h
    · exact Or.inl h
    · exact Or.inr (Or.inl h)
  refine ⟨h', _, T, e1, e2.1, e2.2.1, e2.2.2.1, e2.2.2.2.1, e2.2.2.2.2.1, e2.2.2.2.2.2.1, e2.2.2.2.2.2.2, e3, ?_, ?_, ?_, ?_⟩
  · unfold withDaughters
    rw [List.map_map]
    exact e4.map_eq _ _ fun a _ b _ hab => by simp only [Function.comp, hab.1, hab.2.type]
  · unfold withDaughters
    refine e4.mapRight _ fun a ha b _ hab => ?_
    have hk := keptHead_written std a.2 (hok a ha)
    have hf := hab.2.flag
    have hp := hab.2.params
    refine ⟨fun h => by simp only [hf]; exact hk.flag h, fun i hi => by simp only [hf]; exact hk.bits i hi,
      by simp only [hp]; exact hk.ints, by simp only [hp]; exact hk.floats, fun h1 h2 => by simp only [hp]; exact hk.strs h1 h2,
      fun h1 key h2 => by simp only [hp]; exact hk.vertex h1 key h2, fun h1 key h2 => by simp only [hp]; exact hk.generic h1 key h2⟩
  · unfold withDaughters
    refine e4.mapRight _ fun a ha b _ hab h18 => ?_
    refine hab.2.elems.mapRight _ fun e _ e' _ hee => ?_
    unfold LoadedElem at hee
    rw [if_pos (by rw [hab.flag18 (hok a ha)]; exact h18)] at hee
    rw [hee]; rfl
  · unfold withDaughters
    refine e4.mapRight _ fun a ha b _ hab h18 => ?_
    refine hab.2.elems.mapRight _ fun e he e' _ hee => ?_
    obtain ⟨o, ho, _⟩ := (hok a ha).objects h18 e he
    obtain ⟨g1, g2, g3, g4⟩ := final_elem hab (hok a ha) h18 e e' he hee o ho
    refine hR T a.2.flag b.2.flag (kindD a.2) e e' o (kids L) e3 ho g1 g4 g2 g3 ?_
    intro hk
    have hm : isMC a = true := by
      unfold isMC
      rw [(kind_mc a.2.type _ (hok a ha).kind).2 hk, h18]; rfl
    have hin : e ∈ mcElems W := mem_mcElems.2 ⟨a, ha, hm, he⟩
    refine ⟨hin, kids_loaded (allTagged W) e3.distinct e4 hok hmcp e.addr ?_⟩
    apply (mcAddrs_tagged hok).subset
    rw [mcAddrs_eq]
    exact List.mem_map_of_mem hin

/-! ## C39 -/

/-- **C39**. MCParticles are loaded with all the attributes and parents that were stored (`keptMCParticle`), for every simulator status.
Partial: the parents of a particle must be in the same collection or one that comes earlier in the event (see `C39_fails_for_later_parent`). -/
theorem C39_mcparticles_partial (std : Std Pid) (ignoreNull : Bool) (only wanted : List Str) (h : EventHeader) (cols : List (Str × Collection))
    (hs : Storable std ignoreNull only wanted h cols) (buf : Str × Str) (opts : W32) (next : Nat) (hnext : 0 < next) :
    ∃ h' cols' T, storeLoadEvent std ignoreNull only wanted buf opts next h cols = .ok (h', cols') ∧
      LoadedEvent (wantedCols wanted (storedCols only cols)) h h' cols' T (fun _ e e' =>
        ∀ o, e.obj = some (.mcParticle o) →
          ∃ ds, e' = ⟨T e.addr, some (.mcParticle { keptMCParticle std T o with daughters := ds })⟩) := by
  refine event_final std ignoreNull only wanted h cols hs buf opts next hnext (fun T _ e e' => ∀ o, e.obj = some (.mcParticle o) →
          ∃ ds, e' = ⟨T e.addr, some (.mcParticle { keptMCParticle std T o with daughters := ds })⟩) ?_
  intro T flag flag' k e e' o D hT ho hok hf he' ha hD x hx
  rw [ho] at hx
  cases hx
  cases k <;> simp only [ObjOk] at hok
  obtain ⟨a', o'⟩ := e'
  simp only at he'
  subst he'
  refine ⟨D a', ?_⟩
  rw [← ha rfl]
  rfl

/-! ## C40 -/

/-- **C40**. After loading an event, a particle has as daughters the loaded particles that have it as a parent, in order and with the
multiplicity written. Partial: as in C39. -/
theorem C40_daughters_partial (std : Std Pid) (ignoreNull : Bool) (only wanted : List Str) (h : EventHeader) (cols : List (Str × Collection))
    (hs : Storable std ignoreNull only wanted h cols) (buf : Str × Str) (opts : W32) (next : Nat) (hnext : 0 < next) :
    ∃ h' cols' T, storeLoadEvent std ignoreNull only wanted buf opts next h cols = .ok (h', cols') ∧
      LoadedEvent (wantedCols wanted (storedCols only cols)) h h' cols' T (fun _ e e' =>
        ∀ o, e.obj = some (.mcParticle o) →
          ∃ o', e' = ⟨T e.addr, some (.mcParticle o')⟩ ∧ o'.parents = o.parents.map T ∧
            o'.daughters = (childrenOf (mcElems (wantedCols wanted (storedCols only cols))) e.addr).map T) := by
  refine event_final std ignoreNull only wanted h cols hs buf opts next hnext (fun T _ e e' => ∀ o, e.obj = some (.mcParticle o) →
          ∃ o', e' = ⟨T e.addr, some (.mcParticle o')⟩ ∧ o'.parents = o.parents.map T ∧
            o'.daughters = (childrenOf (mcElems (wantedCols wanted (storedCols only cols))) e.addr).map T) ?_
  intro T flag flag' k e e' o D hT ho hok hf he' ha hD x hx
  rw [ho] at hx
  cases hx
  cases k <;> simp only [ObjOk] at hok
  obtain ⟨a', o'⟩ := e'
  simp only at he'
  subst he'
  have := ha rfl
  simp only at this
  subst this
  exact ⟨_, rfl, rfl, (hD rfl).2⟩

/-! ## C41 -/

/-- **C41**. Objects of the tracker hit classes are loaded with all attributes that the flag word of their collection selects (`keptX`). -/
theorem C41_tracker_hits (std : Std Pid) (ignoreNull : Bool) (only wanted : List Str) (h : EventHeader) (cols : List (Str × Collection))
    (hs : Storable std ignoreNull only wanted h cols) (buf : Str × Str) (opts : W32) (next : Nat) (hnext : 0 < next) :
    ∃ h' cols' T, storeLoadEvent std ignoreNull only wanted buf opts next h cols = .ok (h', cols') ∧
      LoadedEvent (wantedCols wanted (storedCols only cols)) h h' cols' T (fun flag e e' =>
        (∀ o, e.obj = some (.simTrackerHit o) → e' = ⟨T e.addr, some (.simTrackerHit (keptSimTrackerHit flag T o))⟩) ∧
        (∀ o, e.obj = some (.trackerHit o) → e' = ⟨T e.addr, some (.trackerHit (keptTrackerHit flag T o))⟩) ∧
        (∀ o, e.obj = some (.trackerHitPlane o) → e' = ⟨T e.addr, some (.trackerHitPlane (keptTrackerHitPlane flag T o))⟩) ∧
        (∀ o, e.obj = some (.trackerHitZCylinder o) → e' = ⟨T e.addr, some (.trackerHitZCylinder (keptTrackerHitZCylinder flag T o))⟩) ∧
        (∀ o, e.obj = some (.trackerRawData o) → e' = ⟨T e.addr, some (.trackerRawData (keptTrackerRawData flag o))⟩) ∧
        (∀ o, e.obj = some (.trackerData o) → e' = ⟨T e.addr, some (.trackerData (keptTrackerData flag o))⟩) ∧
        (∀ o, e.obj = some (.trackerPulse o) → e' = ⟨T e.addr, some (.trackerPulse (keptTrackerPulse flag T o))⟩) ∧
        (∀ o, e.obj = some (.tpcHit o) → e'.obj = some (.tpcHit (keptTPCHit flag o)) ∧ (flag.getLsbD 30 = false → e'.addr = T e.addr))) := by
  refine event_final std ignoreNull only wanted h cols hs buf opts next hnext (fun T flag e e' =>
        (∀ o, e.obj = some (.simTrackerHit o) → e' = ⟨T e.addr, some (.simTrackerHit (keptSimTrackerHit flag T o))⟩) ∧
        (∀ o, e.obj = some (.trackerHit o) → e' = ⟨T e.addr, some (.trackerHit (keptTrackerHit flag T o))⟩) ∧
        (∀ o, e.obj = some (.trackerHitPlane o) → e' = ⟨T e.addr, some (.trackerHitPlane (keptTrackerHitPlane flag T o))⟩) ∧
        (∀ o, e.obj = some (.trackerHitZCylinder o) → e' = ⟨T e.addr, some (.trackerHitZCylinder (keptTrackerHitZCylinder flag T o))⟩) ∧
        (∀ o, e.obj = some (.trackerRawData o) → e' = ⟨T e.addr, some (.trackerRawData (keptTrackerRawData flag o))⟩) ∧
        (∀ o, e.obj = some (.trackerData o) → e' = ⟨T e.addr, some (.trackerData (keptTrackerData flag o))⟩) ∧
        (∀ o, e.obj = some (.trackerPulse o) → e' = ⟨T e.addr, some (.trackerPulse (keptTrackerPulse flag T o))⟩) ∧
        (∀ o, e.obj = some (.tpcHit o) → e'.obj = some (.tpcHit (keptTPCHit flag o)) ∧ (flag.getLsbD 30 = false → e'.addr = T e.addr))) ?_
  intro T flag flag' k e e' o D hT ho hok hf he' ha hD
  rw [ho]
  obtain ⟨a', o'⟩ := e'
  simp only at he'
  subst he'
  refine ⟨?_, ?_, ?_, ?_, ?_, ?_, ?_, ?_⟩ <;> intro x hx <;> cases hx <;> cases k <;> simp only [ObjOk] at hok <;>
    (have hf' := hf (by simp); subst hf'; simp only [canPointAt, forall_const] at ha)
  all_goals first
    | (rw [← ha]; rfl)
    | exact ⟨rfl, fun hb => ha (by rw [hb]; rfl)⟩

/-! ## C42 -/

/-- **C42**. Objects of the calorimeter hit classes are loaded with all attributes that the flag word of their collection selects (`keptX`). -/
theorem C42_calorimeter_hits (std : Std Pid) (ignoreNull : Bool) (only wanted : List Str) (h : EventHeader) (cols : List (Str × Collection))
    (hs : Storable std ignoreNull only wanted h cols) (buf : Str × Str) (opts : W32) (next : Nat) (hnext : 0 < next) :
    ∃ h' cols' T, storeLoadEvent std ignoreNull only wanted buf opts next h cols = .ok (h', cols') ∧
      LoadedEvent (wantedCols wanted (storedCols only cols)) h h' cols' T (fun flag e e' =>
        (∀ o, e.obj = some (.simCalHit o) → e' = ⟨T e.addr, some (.simCalHit (keptSimCalHit flag T o))⟩) ∧
        (∀ o, e.obj = some (.calHit o) → e'.obj = some (.calHit (keptCalHit flag T o)) ∧ (flag.getLsbD 28 = false → e'.addr = T e.addr)) ∧
        (∀ o, e.obj = some (.rawCalHit o) → e'.obj = some (.rawCalHit (keptRawCalHit flag o)) ∧ (flag.getLsbD 28 = false → e'.addr = T e.addr))) := by
  refine event_final std ignoreNull only wanted h cols hs buf opts next hnext (fun T flag e e' =>
        (∀ o, e.obj = some (.simCalHit o) → e' = ⟨T e.addr, some (.simCalHit (keptSimCalHit flag T o))⟩) ∧
        (∀ o, e.obj = some (.calHit o) → e'.obj = some (.calHit (keptCalHit flag T o)) ∧ (flag.getLsbD 28 = false → e'.addr = T e.addr)) ∧
        (∀ o, e.obj = some (.rawCalHit o) → e'.obj = some (.rawCalHit (keptRawCalHit flag o)) ∧ (flag.getLsbD 28 = false → e'.addr = T e.addr))) ?_
  intro T flag flag' k e e' o D hT ho hok hf he' ha hD
  rw [ho]
  obtain ⟨a', o'⟩ := e'
  simp only at he'
  subst he'
  refine ⟨?_, ?_, ?_⟩ <;> intro x hx <;> cases hx <;> cases k <;> simp only [ObjOk] at hok <;>
    (have hf' := hf (by simp); subst hf'; simp only [canPointAt, forall_const] at ha)
  all_goals first
    | (rw [← ha]; rfl)
    | exact ⟨rfl, fun hb => ha (by rw [hb]; rfl)⟩

/-! ## C43 -/

/-- **C43**. Tracks, clusters, reconstructed particles and vertices are loaded with all attributes and references that the flag word of their
collection selects (`keptX`); the particle ids of a reconstructed particle are loaded objects, too.
Partial: the track states must be at different locations (`TrackOk`, see `C43_fails_for_two_states`), a cluster must have as many weights
as hits (`ClusterOk`, see `C43_fails_for_missing_weight`); and particle ids are put in an order of descending likelihood (see `C43_pid_order`). -/
theorem C43_tracks_clusters_particles_vertices_partial (std : Std Pid) (ignoreNull : Bool) (only wanted : List Str) (h : EventHeader)
    (cols : List (Str × Collection)) (hs : Storable std ignoreNull only wanted h cols) (buf : Str × Str) (opts : W32) (next : Nat) (hnext : 0 < next) :
    ∃ h' cols' T, storeLoadEvent std ignoreNull only wanted buf opts next h cols = .ok (h', cols') ∧
      LoadedEvent (wantedCols wanted (storedCols only cols)) h h' cols' T (fun flag e e' =>
        (∀ o, e.obj = some (.track o) → e' = ⟨T e.addr, some (.track (keptTrack flag T o))⟩) ∧
        (∀ o, e.obj = some (.cluster o) → e' = ⟨T e.addr, some (.cluster (keptCluster std flag T o))⟩) ∧
        (∀ o, e.obj = some (.recoParticle o) → e' = ⟨T e.addr, some (.recoParticle (keptRecoParticle std T (o.pids.map fun p => T p.addr) o))⟩) ∧
        (∀ o, e.obj = some (.vertex o) → e' = ⟨T e.addr, some (.vertex (keptVertex T o))⟩)) := by
  refine event_final std ignoreNull only wanted h cols hs buf opts next hnext (fun T flag e e' =>
        (∀ o, e.obj = some (.track o) → e' = ⟨T e.addr, some (.track (keptTrack flag T o))⟩) ∧
        (∀ o, e.obj = some (.cluster o) → e' = ⟨T e.addr, some (.cluster (keptCluster std flag T o))⟩) ∧
        (∀ o, e.obj = some (.recoParticle o) → e' = ⟨T e.addr, some (.recoParticle (keptRecoParticle std T (o.pids.map fun p => T p.addr) o))⟩) ∧
        (∀ o, e.obj = some (.vertex o) → e' = ⟨T e.addr, some (.vertex (keptVertex T o))⟩)) ?_
  intro T flag flag' k e e' o D hT ho hok hf he' ha hD
  rw [ho]
  obtain ⟨a', o'⟩ := e'
  simp only at he'
  subst he'
  refine ⟨?_, ?_, ?_, ?_⟩ <;> intro x hx <;> cases hx <;> cases k <;> simp only [ObjOk] at hok <;>
    (have hf' := hf (by simp); subst hf'; simp only [canPointAt, forall_const] at ha)
  all_goals (rw [← ha]; rfl)

/-! ## C44 -/

/-- **C44**. Relations, vectors and generic objects are loaded with all attributes that the flag word of their collection selects (`keptX`).
Partial: fixed size generic objects of a collection must be of the same size, and a collection that has bit 31 (`GOBIT_FIXED`) set must
have only fixed size objects (`GenericColOk`, see `C44_fails_for_different_sizes` and `C44_fails_for_stale_flag`). -/
theorem C44_relations_vectors_generic_partial (std : Std Pid) (ignoreNull : Bool) (only wanted : List Str) (h : EventHeader)
    (cols : List (Str × Collection)) (hs : Storable std ignoreNull only wanted h cols) (buf : Str × Str) (opts : W32) (next : Nat) (hnext : 0 < next) :
    ∃ h' cols' T, storeLoadEvent std ignoreNull only wanted buf opts next h cols = .ok (h', cols') ∧
      LoadedEvent (wantedCols wanted (storedCols only cols)) h h' cols' T (fun flag e e' =>
        (∀ o, e.obj = some (.relation o) → e'.obj = some (.relation (keptRelation flag T o))) ∧
        (∀ l, e.obj = some (.intVec l) → e' = ⟨T e.addr, some (.intVec l)⟩) ∧
        (∀ l, e.obj = some (.floatVec l) → e' = ⟨T e.addr, some (.floatVec l)⟩) ∧
        (∀ l, e.obj = some (.strVec l) → e' = ⟨T e.addr, some (.strVec l)⟩) ∧
        (∀ o, e.obj = some (.generic o) → ∃ fixed, e' = ⟨T e.addr, some (.generic (keptGeneric fixed o))⟩)) := by
  refine event_final std ignoreNull only wanted h cols hs buf opts next hnext (fun T flag e e' =>
        (∀ o, e.obj = some (.relation o) → e'.obj = some (.relation (keptRelation flag T o))) ∧
        (∀ l, e.obj = some (.intVec l) → e' = ⟨T e.addr, some (.intVec l)⟩) ∧
        (∀ l, e.obj = some (.floatVec l) → e' = ⟨T e.addr, some (.floatVec l)⟩) ∧
        (∀ l, e.obj = some (.strVec l) → e' = ⟨T e.addr, some (.strVec l)⟩) ∧
        (∀ o, e.obj = some (.generic o) → ∃ fixed, e' = ⟨T e.addr, some (.generic (keptGeneric fixed o))⟩)) ?_
  intro T flag flag' k e e' o D hT ho hok hf he' ha hD
  rw [ho]
  obtain ⟨a', o'⟩ := e'
  simp only at he'
  subst he'
  refine ⟨?_, ?_, ?_, ?_, ?_⟩ <;> intro x hx <;> cases hx <;> cases k <;> simp only [ObjOk] at hok
  · have hf' := hf (by simp); subst hf'; rfl
  · simp only [canPointAt, forall_const] at ha; rw [← ha]; rfl
  · simp only [canPointAt, forall_const] at ha; rw [← ha]; rfl
  · simp only [canPointAt, forall_const] at ha; rw [← ha]; rfl
  · simp only [canPointAt, forall_const] at ha; exact ⟨_, by rw [← ha]; rfl⟩

end Props
