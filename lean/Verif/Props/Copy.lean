import Verif.Lcio.CopyLemmas4
import Verif.Props.EventCases
/-
C67: copying events from file to file.
-/
namespace Props
open Sio Spec Lcio

theorem laws (std : Std Pid) (hsort : SortLaw std) (hflt : ∀ x, viaFloat std (viaFloat std x) = viaFloat std x) : Laws std := by
  refine ⟨hflt, fun l hl => ?_⟩
  obtain ⟨h1, h2⟩ := addedInTurn_sorted std hsort l hl
  refine ⟨h1, fun hstrict => ?_⟩
  refine h1.eq_of_pairwise (le := fun p q => fKey q.likelihood ≤ fKey p.likelihood) ?_ h2 (hstrict.imp fun h => by omega)
  intro a b ha hb hab hba
  have ha' := h1.mem_iff.1 ha
  clear ha h1 h2 hl
  induction l with
  | nil => cases hb
  | cons x l ih =>
    unfold Descending at hstrict
    rw [List.pairwise_cons] at hstrict
    rcases List.mem_cons.1 ha' with rfl | ha'' <;> rcases List.mem_cons.1 hb with rfl | hb'
    · rfl
    · have := hstrict.1 b hb'; omega
    · have := hstrict.1 a ha''; omega
    · exact ih hstrict.2 hb' ha''

/-- An event that was loaded can be stored, its records are not longer than those it was loaded from, and what is loaded then is the same. -/
theorem copied (std : Std Pid) (hsort : SortLaw std) (hflt : ∀ x, viaFloat std (viaFloat std x) = viaFloat std x) (ignoreNull : Bool)
    (only wanted : List Str) (h : EventHeader) (cols : List (Str × Collection)) (hs : Storable std ignoreNull only wanted h cols)
    (hc : Copyable (wantedCols wanted (storedCols only cols))) (buf : Str × Str) (opts : W32) (next : Nat) (hnext : 0 < next) :
    ∃ h1 cols1, storeLoadEvent std ignoreNull only wanted buf opts next h cols = .ok (h1, cols1) ∧ h1.run = h.run ∧ h1.evt = h.evt ∧
      Storable std ignoreNull [] [] h1 (resolved cols1) ∧
      dataLen [EventHeader.block [] { h1 with cols := colHeads (resolved cols1) }] ≤ dataLen [EventHeader.block only { h with cols := colHeads cols }] ∧
      dataLen (eventBlocks std [] (resolved cols1)) ≤ dataLen (eventBlocks std only cols) ∧
      ∀ (buf' : Str × Str) (opts' : W32) (next' : Nat), 0 < next' →
        ∃ h2 cols2, storeLoadEvent std ignoreNull [] [] buf' opts' next' h1 (resolved cols1) = .ok (h2, cols2) ∧ SameEvent h1 h2 cols1 cols2 := by
  have hl := laws std hsort hflt
  obtain ⟨h1, L, T, e1, e2, e3, e4⟩ := event_loaded std ignoreNull only wanted h cols hs buf opts next hnext
  obtain ⟨hs2, hz1, hz2⟩ := stored_again std hl ignoreNull only wanted h h1 cols L T hs hc e2 e3 e4 (kids L)
  refine ⟨h1, _, e1, e2.1, e2.2.1, hs2, hz1, hz2, fun buf' opts' next' hn' => ?_⟩
  obtain ⟨h2, L2, T2, f1, f2, f3, f4⟩ := event_loaded std ignoreNull [] [] h1 _ hs2 buf' opts' next' hn'
  have hok : ∀ c ∈ wantedCols wanted (storedCols only cols), CollectionOk std (kindD c.2) c.2 :=
    fun c hc => hs.event.stored c (List.mem_filter.1 hc).1
  have hF : ∀ c ∈ wantedCols wanted (storedCols only cols), First std c.2 := fun c hcW =>
    ⟨hok c hcW, fun h18 => (hc.vertices c hcW h18).1, hc.numbers c hcW, hc.typeNames c hcW⟩
  have hnd := hs.event.addresses.sublist (allTagged_sub wanted _)
  have hst := storedCols_resolved hl e4 hF e3 hnd hc.vertices (kids L) (fun c hcW => by
    have := (List.mem_filter.1 (List.mem_filter.1 hcW).1).2
    rw [Bool.and_eq_true, Bool.not_eq_true'] at this
    exact this.1)
  have hwt : wantedCols [] (resolved (withDaughters (kids L) L)) = resolved (withDaughters (kids L) L) := List.filter_eq_self.2 fun r _ => rfl
  have hok2 := hs2.event.stored
  have h0 := hs2.event.nonNull
  rw [hst] at hok2 h0 f3 f4
  rw [hwt] at f3 f4
  refine ⟨h2, _, f1, f2.1, f2.2.1, f2.2.2.1, f2.2.2.2.1, f2.2.2.2.2.1, f2.2.2.2.2.2.1, f2.2.2.2.2.2.2, T2, ?_,
    same_again std hl _ L L2 T T2 hF e4 e3 hnd hc.vertices hs.parents hok2 h0 f3 f4⟩
  have := tagged_resolved (withDaughters (kids L) L)
  exact ⟨by rw [← this]; exact f3.null, by rw [← this]; exact f3.nonNull, by rw [← this]; exact f3.distinct⟩

/-- **C67** (partial). Whatever event is stored and loaded (of which collections `only` are stored, and of these `wanted` loaded), what was loaded
can be stored, with any buffers and options, and what is loaded then is the same: event header, names, types, flag words and parameters of all
collections, and all attributes of all objects, with the same pointers between them. This does not hold of events with null pointers in subsets of
vertices, or with generic objects without type name (see below), nor of likelihoods that are not numbers; subsets of generic objects are left out.
-/
theorem C67_copy_partial (std : Std Pid) (hsort : SortLaw std) (hflt : ∀ x, viaFloat std (viaFloat std x) = viaFloat std x) (ignoreNull : Bool)
    (only wanted : List Str) (h : EventHeader) (cols : List (Str × Collection)) (hs : Storable std ignoreNull only wanted h cols)
    (hc : Copyable (wantedCols wanted (storedCols only cols))) (buf : Str × Str) (opts : W32) (next : Nat) (hnext : 0 < next) :
    ∃ h1 cols1, storeLoadEvent std ignoreNull only wanted buf opts next h cols = .ok (h1, cols1) ∧
      ∀ (buf' : Str × Str) (opts' : W32) (next' : Nat), 0 < next' →
        ∃ h2 cols2, storeLoadEvent std ignoreNull [] [] buf' opts' next' h1 (resolved cols1) = .ok (h2, cols2) ∧ SameEvent h1 h2 cols1 cols2 := by
  obtain ⟨h1, cols1, a, -, -, -, -, -, b⟩ := copied std hsort hflt ignoreNull only wanted h cols hs hc buf opts next hnext
  exact ⟨h1, cols1, a, b⟩

instance {α : Type} (x : Option α) (P : α → Prop) [DecidablePred P] : Decidable (∀ o, x = some o → P o) :=
  match x with
  | none => isTrue (fun _ h => by cases h)
  | some o => decidable_of_iff (P o) (by simp)
instance (cs : List (Str × Collection)) : Decidable (NumbersOnly cs) := by unfold NumbersOnly; infer_instance
instance (cs : List (Str × Collection)) : Decidable (VertexSubsets cs) := by unfold VertexSubsets; infer_instance

/-- The sample event, with a subset of vertices, meets the hypotheses of C67. -/
example : ∃ cols, (str "Vtx2", ({ type := str "Vertex", flag := 0x40000, elems := [⟨70, some (.vertex { primary := 1, algorithmType := str "ZV", params := [1], particle := 40 })⟩] } : Collection)) ∈ cols ∧
    (∀ c ∈ sampleCols, c ∈ cols) ∧ SortLaw ieee ∧ (∀ x, viaFloat ieee (viaFloat ieee x) = viaFloat ieee x) ∧ Storable ieee false [] [] sampleEventHeader cols ∧
    Copyable (wantedCols [] (storedCols [] cols)) := by
  refine ⟨sampleCols ++ [(str "Vtx2", { type := str "Vertex", flag := 0x40000, elems := [⟨70, some (.vertex { primary := 1, algorithmType := str "ZV", params := [1], particle := 40 })⟩] })],
    by simp, fun c hc => by simp [hc], ieee_sort, viaFloat_twice, by decide +kernel, by decide +kernel, by decide +kernel, ?_⟩
  decide +kernel

/-! ### Where it fails -/

/-- A vertex in no collection, in a subset. -/
def lostVertex : List (Str × Collection) := [(str "Sub", { type := str "Vertex", flag := 0x40000, elems := [⟨70, some (.vertex { algorithmType := str "ZV" })⟩] })]

/-- **C67** fails for subsets of vertices with vertices that are in no collection of the event: a reader that ignores null pointers loads the event
(with a null pointer), but storing what it loaded is undefined behaviour. -/
theorem C67_fails_for_null_vertex : Storable ieee true [] [] {} lostVertex ∧
    (storeLoadEvent ieee true [] [] ([], []) 0 1 {} lostVertex).map (fun x => x.2.map fun c => c.2.elems) = .ok [[⟨0, none⟩]] ∧
    ((storeLoadEvent ieee true [] [] ([], []) 0 1 {} lostVertex).bind fun x => writeEvent ieee [] ([], []) 0 x.1 (resolved x.2)) = .error .ub := by
  decide +kernel

/-- A generic object whose class has no name. -/
def namelessGeneric : List (Str × Collection) := [(str "Gen", { type := str "LCGenericObject", elems := [⟨60, some (.generic { ints := [1], typeName := [] })⟩] })]

/-- **C67** fails for generic objects with an empty type name: the parameter `TypeName` of the collection is empty when it is loaded, and
`LCGenericObject` when what was loaded is stored and loaded. -/
theorem C67_fails_without_type_name : Storable ieee false [] [] {} namelessGeneric ∧
    (storeLoadEvent ieee false [] [] ([], []) 0 1 {} namelessGeneric).map (fun x => x.2.map fun c => omFind strLt (str "TypeName") c.2.params.strs) = .ok [some [[]]] ∧
    ((storeLoadEvent ieee false [] [] ([], []) 0 1 {} namelessGeneric).bind fun x => (storeLoadEvent ieee false [] [] ([], []) 0 1 x.1 (resolved x.2))).map
      (fun x => x.2.map fun c => omFind strLt (str "TypeName") c.2.params.strs) = .ok [some [str "LCGenericObject"]] := by
  decide +kernel

end Props
