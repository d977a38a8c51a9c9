import Verif.Lcio.ExtendLemmas
import Verif.Props.Copy
/-
C110: adding collections to events that were read.
-/
namespace Props
open Sio Spec Lcio

theorem placed_final (std : Std Pid) (ignoreNull : Bool) (h h' : EventHeader) (cols L : List (Str × Collection)) (T : Nat → Nat)
    (hs : Storable std ignoreNull [] [] h cols)
    (e2 : h'.run = h.run ∧ h'.evt = h.evt ∧ h'.time = h.time ∧ h'.det = h.det ∧
        h'.params.ints = h.params.ints ∧ h'.params.floats = h.params.floats ∧ h'.params.strs = h.params.strs)
    (e3 : Pointers (storedCols [] cols) T) (e4 : All2 (LoadedAs std T) (storedCols [] cols) L) (D : Nat → List Nat) :
    LoadedEvent (storedCols [] cols) h h' (withDaughters D L) T (Placed T) := by
  have hok : ∀ c ∈ storedCols [] cols, CollectionOk std (kindD c.2) c.2 := hs.event.stored
  generalize storedCols [] cols = W at *
  refine ⟨e2.1, e2.2.1, e2.2.2.1, e2.2.2.2.1, e2.2.2.2.2.1, e2.2.2.2.2.2.1, e2.2.2.2.2.2.2, e3, ?_, ?_, ?_, ?_⟩
  · unfold withDaughters
    rw [List.map_map]
    exact e4.map_eq _ _ fun a _ b _ hab => by simp only [Function.comp, hab.1, hab.2.type]
  · unfold withDaughters
    refine e4.mapRight _ fun a ha b _ hab => ?_
    have hk := keptHead_written std a.2 (hok a ha)
    have hf := hab.2.flag
    have hp := hab.2.params
    refine ⟨fun h => by simp only [hf]; exact hk.flag h, fun i hi => by simp only [hf]; exact hk.bits i hi,
      by simp only [hp]; exact hk.ints, by simp only [hp]; exact hk.floats, fun h1 h2 => by simp only [hp]; exact hk.strs h1 h2,
      fun h1 key h2 => by simp only [hp]; exact hk.vertex h1 key h2, fun h1 key h2 => by simp only [hp]; exact hk.generic h1 key h2⟩
  · unfold withDaughters
    refine e4.mapRight _ fun a ha b _ hab h18 => ?_
    refine hab.2.elems.mapRight _ fun e _ e' _ hee => ?_
    unfold LoadedElem at hee
    rw [if_pos (by rw [hab.flag18 (hok a ha)]; exact h18)] at hee
    rw [hee]; rfl
  · unfold withDaughters
    refine e4.mapRight _ fun a ha b _ hab h18 => ?_
    refine hab.2.elems.mapRight _ fun e he e' _ hee o ho => ?_
    obtain ⟨g1, g2, g3, g4⟩ := final_elem hab (hok a ha) h18 e e' he hee o ho
    have hk : (classOf o).2 = kindD a.2 := by
      generalize kindD a.2 = k at g1
      cases k <;> cases o <;> first | rfl | exact absurd g1 (by simp [ObjOk])
    refine ⟨fun hcp => by rw [withD_addr]; exact g3 (hk ▸ hcp), fun x hx => ?_⟩
    subst hx
    have hf := g4 (by rw [← hk]; simp [classOf])
    rw [hf] at g2
    refine ⟨_, withD_some _ _ _ g2, rfl, rfl, fun h31 => ?_⟩
    show ifBit a.2.flag 31 x.weight 0x3f800000 = x.weight
    unfold ifBit
    rw [h31]; rfl

/-- **C110** (partial). An event is stored and loaded; then collections are added to what was loaded, and other values may be given to the event header, and that is stored and loaded again.
If it can be stored, then it comes back with all its collections; those that were loaded first come back the same: names, types, flag words, parameters and all attributes of all
objects, with the same pointers between them; what was added comes back as what was stored (for its attributes see C39 to C44, which say so of every event that can be stored), and the
relations that were added lead from and to what they led, be it in the old or in the new collections.

Missing: the events for which C67 fails. -/
theorem C110_extended_partial (std : Std Pid) (hsort : SortLaw std) (hflt : ∀ x, viaFloat std (viaFloat std x) = viaFloat std x) (ignoreNull : Bool)
    (only wanted : List Str) (h : EventHeader) (cols : List (Str × Collection)) (hs : Storable std ignoreNull only wanted h cols)
    (hc : Copyable (wantedCols wanted (storedCols only cols))) (buf : Str × Str) (opts : W32) (next : Nat) (hnext : 0 < next) :
    ∃ h1 cols1, storeLoadEvent std ignoreNull only wanted buf opts next h cols = .ok (h1, cols1) ∧
      ∀ (hdr : EventHeader) (all : List (Str × Collection)), Extends cols1 all → Storable std ignoreNull [] [] hdr all →
        ∀ (buf' : Str × Str) (opts' : W32) (next' : Nat), 0 < next' →
          ∃ h2 cols2 T, storeLoadEvent std ignoreNull [] [] buf' opts' next' hdr all = .ok (h2, cols2) ∧
            LoadedEvent (storedCols [] all) hdr h2 cols2 T (Placed T) ∧ ∀ c ∈ cols1, ∃ c' ∈ cols2, SameCol T c c' := by
  have hl := laws std hsort hflt
  obtain ⟨h1, L, T, e1, e2, e3, e4⟩ := event_loaded std ignoreNull only wanted h cols hs buf opts next hnext
  refine ⟨h1, _, e1, fun hdr all hext hs2 buf' opts' next' hn' => ?_⟩
  obtain ⟨h2, L2, T2, f1, f2, f3, f4⟩ := event_loaded std ignoreNull [] [] hdr all hs2 buf' opts' next' hn'
  have hok : ∀ c ∈ wantedCols wanted (storedCols only cols), CollectionOk std (kindD c.2) c.2 :=
    fun c hc => hs.event.stored c (List.mem_filter.1 hc).1
  have hF : ∀ c ∈ wantedCols wanted (storedCols only cols), First std c.2 := fun c hcW =>
    ⟨hok c hcW, fun h18 => (hc.vertices c hcW h18).1, hc.numbers c hcW, hc.typeNames c hcW⟩
  have hnd := hs.event.addresses.sublist (allTagged_sub wanted _)
  have hst := storedCols_resolved hl e4 hF e3 hnd hc.vertices (kids L) (fun c hcW => by
    have := (List.mem_filter.1 (List.mem_filter.1 hcW).1).2
    rw [Bool.and_eq_true, Bool.not_eq_true'] at this
    exact this.1)
  have hwt : ∀ l, wantedCols [] l = l := fun l => List.filter_eq_self.2 fun r _ => rfl
  have hpar := hs2.parents
  rw [hwt] at f3 f4 hpar
  have hsub : (resolved (withDaughters (kids L) L)).Sublist (storedCols [] all) := by
    rw [← hst]
    exact hext.kept.filter _
  have hAn : (storedCols [] all).Nodup := (List.Nodup.of_map _ hs2.event.names).sublist List.filter_sublist
  exact ⟨h2, _, T2, f1, placed_final std ignoreNull hdr h2 all L2 T2 hs2 f2 f3 f4 _,
    same_extended std hl _ L _ L2 T T2 hF e4 e3 hnd hc.vertices hsub hAn hs2.event.stored hpar
      (fun c hcA hcn => hext.parents c (List.mem_filter.1 hcA).1 hcn) hs2.event.nonNull f3 f4⟩

/-- An event with a particle, its daughter and a hit of the daughter. -/
def beforeRec : List (Str × Collection) :=
  [(str "Hits", { type := str "SimTrackerHit", flag := 0x40000000, elems := [⟨20, some (.simTrackerHit { cellID0 := 5, particle := 11, pathLength := 9 })⟩] }),
   (str "MC", { type := str "MCParticle", elems := [⟨10, some (.mcParticle { pdg := 23, daughters := [11] })⟩, ⟨11, some (.mcParticle { pdg := 13, parents := [10] })⟩] })]

/-- As it is loaded. -/
def loadedRec : List (Str × Collection) :=
  [(str "Hits", { type := str "SimTrackerHit", flag := 0x40000000, elems := [⟨1, some (.simTrackerHit { cellID0 := 5, particle := 3, pathLength := 9 })⟩] }),
   (str "MC", { type := str "MCParticle", elems := [⟨2, some (.mcParticle { pdg := 23, daughters := [3] })⟩, ⟨3, some (.mcParticle { pdg := 13, parents := [2] })⟩] })]

/-- With tracker hits, a track and relations to the simulated hits, and a subset of the particles. The names are between those that were there. -/
def afterRec : List (Str × Collection) :=
  [(str "HitRel", { type := str "LCRelation", flag := 0x80000000, elems := [⟨503, some (.relation { from_ := 500, «to» := 1, weight := 0x3f000000 })⟩] }),
   (str "Hits", { type := str "SimTrackerHit", flag := 0x40000000, elems := [⟨1, some (.simTrackerHit { cellID0 := 5, particle := 3, pathLength := 9 })⟩] }),
   (str "Leptons", { type := str "MCParticle", flag := 0x40000, elems := [⟨3, none⟩] }),
   (str "MC", { type := str "MCParticle", elems := [⟨2, some (.mcParticle { pdg := 23, daughters := [3] })⟩, ⟨3, some (.mcParticle { pdg := 13, parents := [2] })⟩] }),
   (str "RecHits", { type := str "TrackerHit", elems := [⟨500, some (.trackerHit { cellID0 := 5, rawHits := [1] })⟩] }),
   (str "Tracks", { type := str "Track", flag := 0x80000000, elems := [⟨502, some (.track { hitNumbers := [1], hits := [500], states := [{ location := 1 }] })⟩] })]

/-- The events meet the hypotheses. -/
example : Storable ieee false [] [] { run := 3, evt := 7 } beforeRec ∧ Copyable (wantedCols [] (storedCols [] beforeRec)) ∧
    (storeLoadEvent ieee false [] [] ([], []) 0 1 { run := 3, evt := 7 } beforeRec).map (·.2) = .ok loadedRec ∧ Extends loadedRec afterRec ∧
    Storable ieee false [] [] { run := 3, evt := 7 } afterRec := by
  refine ⟨by decide +kernel, ⟨by decide +kernel, by decide +kernel, ?_⟩, by decide +kernel, ⟨?_, ?_⟩, by decide +kernel⟩
  · decide +kernel
  · decide +kernel
  · decide +kernel

/-- The event as loaded, with a daughter added to the last particle, in a collection whose name is before the others. -/
def addedDaughter : List (Str × Collection) :=
  [(str "Added", { type := str "MCParticle", elems := [⟨500, some (.mcParticle { pdg := 11, parents := [3] })⟩] }),
   (str "Hits", { type := str "SimTrackerHit", flag := 0x40000000, elems := [⟨1, some (.simTrackerHit { cellID0 := 5, particle := 3, pathLength := 9 })⟩] }),
   (str "MC", { type := str "MCParticle", elems := [⟨2, some (.mcParticle { pdg := 23, daughters := [3] })⟩, ⟨3, some (.mcParticle { pdg := 13, parents := [2], daughters := [500] })⟩] })]

/-- **C110 fails** when a daughter is added to a particle that was there, in a collection whose name comes before the one of its parent: another particle that was there and was not changed
comes back without its daughter (see `C40_fails_for_later_parent`). -/
theorem C110_fails_added_daughter : (loadedRec.map fun c => c.2.elems.map fun e => (e.addr, parentsOf e, daughtersOf e)) = [[(1, [], [])], [(2, [], [3]), (3, [2], [])]] ∧
    (addedDaughter.map fun c => c.2.elems.map fun e => (e.addr, parentsOf e, daughtersOf e)) = [[(500, [3], [])], [(1, [], [])], [(2, [], [3]), (3, [2], [500])]] ∧
    family (storeLoadEvent ieee false [] [] ([], []) 0 1 { run := 3, evt := 7 } addedDaughter) = .ok [[(1, [4], [])], [(2, [], [])], [(3, [], []), (4, [3], [1])]] :=
  ⟨by decide +kernel, by decide +kernel, by decide +kernel⟩

end Props
