import Verif.Lcio.AccessLemmas
/-
C47: after an event has been set to read-only, setters throw `ReadOnlyException` and change nothing.
-/
namespace Props
open Sio Lcio Spec

/-- After `setAccessMode(READ_ONLY)`, which the reader calls on an event it has unpacked, every sequence of calls of guarded member functions
on the event, its collections and their elements throws `ReadOnlyException` at each call and leaves everything as it is.
Missing: the member functions that do not look at the access mode, see below. -/
theorem C47_frozen_partial (std : Std Pid) (m : Live) (cs : List LiveCall) (h : ∀ c ∈ cs, Guarded m c) :
    (m.setAccessMode 0).calls std cs = (List.replicate cs.length (some .readOnly), m.setAccessMode 0) := by
  induction cs with
  | nil => rfl
  | cons c cs ih =>
    have h1 := guarded_call std m c (h c List.mem_cons_self)
    have h2 := ih fun d hd => h d (List.mem_cons_of_mem _ hd)
    simp only [Live.calls, h1, h2, List.length_cons, List.replicate_succ]

/-- The same for a run header (`setReadOnly(true)`), without `addActiveSubdetector` and `parameters`. -/
theorem C47_runHeader_partial (s : RunHeader.Setter) (h : runHeaderUnchecked s = false) : Refused RunHeader.change s := by
  intro o
  cases s <;> first | rfl | simp [runHeaderUnchecked] at h

/-- `setAccessMode` does not change any data: the data members of the event, the collections and the elements are those from before. -/
theorem C47_mode_only (m : Live) (mode : W32) :
    (m.setAccessMode mode).head = m.head ∧ (m.setAccessMode mode).event.colMap = m.event.colMap ∧
    (∀ c, ((m.setAccessMode mode).cols c).map (·.1) = (m.cols c).map (·.1)) ∧ (∀ a, ((m.setAccessMode mode).objs a).map (·.1) = (m.objs a).map (·.1)) := by
  classical
  obtain ⟨h1, h2, h3, h4⟩ := setCollections (mode == 0) (m.event.colMap.map (·.2)) { m with event := { m.event with readOnly := mode == 0 } }
  refine ⟨h2, by rw [setAccessMode_event], fun c => ?_, fun a => ?_⟩
  · refine (congrArg (Option.map (·.1)) (h3 c)).trans ?_
    split
    · cases m.cols c <;> rfl
    · rfl
  · refine (congrArg (Option.map (·.1)) (h4 a)).trans ?_
    split
    · show (markObj _ (m.objs a)).map _ = _
      cases m.objs a with
      | none => rfl
      | some o => simp only [markObj, Option.map_some]; split <;> rfl
    · rfl

/-- In update mode none of the objects is read-only. -/
theorem C47_update (m : Live) (mode : W32) (hm : mode ≠ 0) : (m.setAccessMode mode).event.readOnly = false ∧
    (∀ n c, (n, c) ∈ m.event.colMap → ∀ k, (m.setAccessMode mode).cols c = some k → k.2 = false) ∧
    (∀ n c k a o, (n, c) ∈ m.event.colMap → m.cols c = some k → a ∈ k.1.elems → (m.setAccessMode mode).objs a = some o → o.1.accessChecked = true →
      o.2 = false) := by
  have hb : (mode == 0) = false := by simpa using hm
  refine ⟨by rw [setAccessMode_event, hb], fun n c hn k hk => ?_, fun n c k a o hn hk ha ho hc => ?_⟩
  · rw [setAccessMode_col m mode n c hn, hb] at hk
    cases hc : m.cols c with
    | none => rw [hc] at hk; cases hk
    | some k' => rw [hc] at hk; cases hk; rfl
  · rw [setAccessMode_obj m mode n c hn k hk a ha, hb] at ho
    cases hm : m.objs a with
    | none => rw [hm] at ho; cases ho
    | some o' =>
      rw [hm] at ho
      simp only [markObj, Option.map_some] at ho
      split at ho
      · cases ho; rfl
      · rename_i hx; cases ho; exact absurd hc hx

/-! ## Where it fails -/

/-- The other member functions of elements do exactly the same to a read-only element as to any other: the eight bit setters of `MCParticle`, `initRawArray`
of `TPCHit`, `rawHits` of `TrackerHitPlane` and `TrackerHitZCylinder`, `setD0` and so on and `addHit` of `Track`, `addHit` of `Cluster`,
`addParticleID` of `ReconstructedParticle`, all those of `LCRelation`, `LCGenericObject`, `LCFloatVec`, `LCIntVec` and `LCStrVec`, and all those of
the track states of a track and the particle ids of a cluster or a reconstructed particle. -/
theorem C47_fails_for_elements (std : Std Pid) (o : Obj) (s : ObjSetter) (h : guarded s = false) : o.change std true s = o.change std false s :=
  obj_unguarded std o s h

/-- `parameters()` and `addCollection` of a read-only event, `setFlag`, `setTransient`, `setDefault`, `setSubset`, `parameters()` and the members of
`std::vector` of a read-only collection, `addActiveSubdetector` and `parameters()` of a read-only run header: the same. -/
theorem C47_fails_for_containers (std : Std Pid) : (∀ (o : EventHeader) s, eventHeaderUnchecked s = true → o.change std true s = o.change std false s) ∧
    (∀ (o : ColObj) s, colObjUnchecked s = true → o.change true s = o.change false s) ∧
    (∀ (o : RunHeader) s, runHeaderUnchecked s = true → o.change true s = o.change false s) ∧
    (∀ (e : EventObj) c n, { e with readOnly := true }.addCollection c n = (e.addCollection c n).map fun e => { e with readOnly := true }) := by
  refine ⟨fun o s h => ?_, fun o s h => ?_, fun o s h => ?_, fun e c n => ?_⟩
  · cases s <;> first | rfl | simp [eventHeaderUnchecked] at h
  · cases s <;> first | rfl | simp [colObjUnchecked] at h
  · cases s <;> first | rfl | simp [runHeaderUnchecked] at h
  · simp only [EventObj.addCollection]
    repeat' split
    all_goals rfl

/-- An event with a collection of three: a particle, a track and a relation; the names are in the order of the map. -/
def liveSample : Live :=
  { event := { colMap := [(str "All", 10)] },
    cols := fun c => if c = 10 then some ({ type := str "LCObject", elems := [1, 2, 3] }, false) else none,
    objs := fun a => if a = 1 then some (.mcParticle { pdg := 11 }, false) else if a = 2 then some (.track { chi2 := 5 }, false)
      else if a = 3 then some (.relation { from_ := 1, to := 2 }, false) else none }

/-- Some conversions; they do not matter here. -/
def stdSample : Std Pid := { narrow := fun _ => 0, widen := fun _ => 0, sort := id }

/-- A read-only event can be changed: the particle becomes an overlay particle, the track gets a `d0`, the relation another end, the collection loses
all its elements, and the event gets another collection. -/
theorem C47_fails_for_event :
    let m := (liveSample.setAccessMode 0).calls stdSample [.element 1 (.mcParticle (.setOverlay true)), .element 2 (.track (.setD0 7)),
      .element 3 (.relation (.setTo 9)), .collection 10 (.vector []), .add 10 (str "Again")]
    m.1 = [none, none, none, none, none] ∧ m.2.event.readOnly = true ∧
    m.2.objs 1 = some (.mcParticle { pdg := 11, simStatus := 0x800000 }, true) ∧ m.2.objs 2 = some (.track { chi2 := 5, states := [{ d0 := 7 }] }, true) ∧
    m.2.objs 3 = some (.relation { from_ := 1, to := 9 }, true) ∧ (m.2.cols 10).map (fun c => c.1.elems) = some [] ∧
    m.2.event.colMap.map (·.1) = [str "Again", str "All"] := by decide +kernel

/-- Calls that are refused meet the hypotheses of `C47_frozen_partial`. -/
example : let cs : List LiveCall := [.event (.setRunNumber 3), .remove (str "All"), .collection 10 (.addElement 1), .element 1 (.mcParticle (.setPDG 13)),
      .element 2 (.track (.setChi2 1))]
    (∀ c ∈ cs, Guarded liveSample c) ∧ (liveSample.calls stdSample cs).1 = [none, none, none, none, none] := by
  refine ⟨fun c hc => ?_, by decide +kernel⟩
  simp only [List.mem_cons, List.not_mem_nil, or_false] at hc
  have hm : (str "All", 10) ∈ liveSample.event.colMap := by simp [liveSample]
  have hk : liveSample.cols 10 = some ({ type := str "LCObject", elems := [1, 2, 3] }, false) := rfl
  rcases hc with rfl | rfl | rfl | rfl | rfl
  · rfl
  · trivial
  · exact ⟨⟨_, hm⟩, rfl, rfl⟩
  · exact ⟨rfl, _, _, _, hm, hk, by decide, (.mcParticle { pdg := 11 }, false), rfl, stdSample, _, rfl⟩
  · exact ⟨rfl, _, _, _, hm, hk, by decide, (.track { chi2 := 5 }, false), rfl, stdSample, _, rfl⟩

/-- With lazy unpacking the reader sets the access mode before the elements exist: the elements of a read-only event are not read-only. For every event
that was set to read-only and unpacked afterwards, and every particle that was unpacked, `setPDG` changes the particle. -/
theorem C47_fails_for_lazy_unpacking (std : Std Pid) (m : Live) (c a : Nat) (p : MCParticle) (v : W32) :
    ((m.setAccessMode 0).unpack [(c, [(a, .mcParticle p)])]).event.readOnly = true ∧
    (((m.setAccessMode 0).unpack [(c, [(a, .mcParticle p)])]).call std (.element a (.mcParticle (.setPDG v)))).1 = none ∧
    (((m.setAccessMode 0).unpack [(c, [(a, .mcParticle p)])]).call std (.element a (.mcParticle (.setPDG v)))).2.objs a =
      some (.mcParticle { p with pdg := v }, false) := by
  have : ((m.setAccessMode 0).unpack [(c, [(a, .mcParticle p)])]).objs a = some (.mcParticle p, false) := by simp [Live.unpack]
  refine ⟨?_, ?_, ?_⟩
  · show (m.setAccessMode 0).event.readOnly = true
    rw [setAccessMode_event]; rfl
  · simp only [Live.call, this, Obj.change]; rfl
  · simp only [Live.call, this, Obj.change, MCParticle.change, Except.map]
    simp

end Props
