import Verif.Util.DumpDetailedLemmas
/-
C102: printing an event in detail. C103: user objects.
-/
namespace Props
open Sio Spec Lcio Util

/-- **C102** (partial): events that have all that they refer to can be printed in detail. -/
theorem C102_partial (cols : List (Str × Collection)) (hs : Sound cols) (hp : Printable cols) : dumpEventDetailed cols = .ok () := by
  refine (dumpEventDetailed_iff cols).2 fun c hc k hk => ⟨head_ok hp hc k, fun e he => ?_, tail_ok hs hp hc hk⟩
  obtain ⟨o, hel, hho, _⟩ := elementAs_ok hs hp hc (printedElems_mem he)
  simp only [showElement, hel]
  exact object_ok hs hp hc hho

/-- **C102** (partial) for events that a reader gives, whatever is in the files: what remains to be asked for is that they are printable. -/
theorem C102_reader_partial (cfg : RConfig) (hc : SafeCodec cfg.codec) (hs : ∀ l, (cfg.std.sort l).Perm l) (files : List (Str × List Byte)) (once : ∀ f ∈ files, OnceIn cfg f.2)
    (r : Reader) (hr : Reached cfg files r) (e : EventData) (he : (r.readNextEvent cfg).1 = .ok (some e)) (hp : Printable e.2) : dumpEventDetailed e.2 = .ok () :=
  C102_partial e.2 ((C99_events cfg hc hs files once r hr).1 e he) hp

theorem take_printed (k : Kind) (c : Collection) {e : Elem} (h : e ∈ c.elems.take 1000) : e ∈ printedElems k c := by
  unfold printedElems
  split
  · exact List.mem_of_mem_take h
  · exact h

theorem known_type {T : Str} (h : T ∈ handlers.map (·.1)) : ∃ k, kindOf T = some k := by
  have : ∀ x ∈ handlers.map (·.1), (kindOf x).isSome = true := by decide
  exact Option.isSome_iff_exists.1 (this T h)

/-- **C102** fails for null pointers in collections: a pointer among the first thousand elements of a collection of any type leads to undefined behaviour. Subset collections have such pointers
after an event has been read without the collection that the objects are in. -/
theorem C102_fails_for_null_elements (cols : List (Str × Collection)) (hs : Sound cols) (c : Str × Collection) (hc : c ∈ cols) (ht : c.2.type ∈ handlers.map (·.1)) (e : Elem)
    (he : e ∈ c.2.elems.take 1000) (ho : e.obj = none) (ha : e.addr = 0) : dumpEventDetailed cols ≠ .ok () := by
  intro h
  obtain ⟨k, hk⟩ := known_type ht
  have h1 := ((dumpEventDetailed_iff cols).1 h c hc k hk).2.1 e (take_printed k c.2 he)
  have h2 : eventObject cols 0 = none := by
    cases h0 : eventObject cols 0 with
    | none => rfl
    | some o =>
      obtain ⟨c', hc', e', he', ha', ho'⟩ := holds_eventObject h0
      exact absurd (List.mem_flatMap.2 ⟨c', hc', List.mem_flatMap.2 ⟨e', he', by rw [owned_obj ho', ha']; exact List.mem_cons_self ..⟩⟩) hs.real
  have h3 : elementAs cols c.2.type e = none := by simp only [elementAs, ho, ha, h2, dynCast]
  simp only [showElement, h3] at h1
  cases h1

/-- **C102** fails for particles that are not there: for all other pointers of a reconstructed particle a null pointer is printed as 0, but not for the particles it consists of. -/
theorem C102_fails_for_missing_particles (cols : List (Str × Collection)) (hs : Sound cols) (c : Str × Collection) (hc : c ∈ cols) (e : Elem) (he : e ∈ c.2.elems.take 1000) (o : RecoParticle)
    (ho : e.obj = some (.recoParticle o)) (h0 : 0 ∈ o.particles) : dumpEventDetailed cols ≠ .ok () := by
  intro h
  have ht : str "ReconstructedParticle" = c.2.type := hs.classes c hc e (List.mem_of_mem_take he) _ ho
  have hk : kindOf c.2.type = some .recoParticle := by rw [← ht]; decide
  have h1 := ((dumpEventDetailed_iff cols).1 h c hc _ hk).2.1 e (take_printed _ c.2 he)
  have h2 : elementAs cols c.2.type e = some (.recoParticle o) := by
    have : castsTo c.2.type (.recoParticle o) = true := by rw [← ht]; rfl
    simp only [elementAs, ho, dynCast, this, if_true]
  simp only [showElement, h2, showObject, andThen_ok, forEach_ok] at h1
  have h3 := h1.2.1 0 h0
  have h4 : eventObject cols 0 = none := by
    cases h0 : eventObject cols 0 with
    | none => rfl
    | some o =>
      obtain ⟨c', hc', e', he', ha', ho'⟩ := holds_eventObject h0
      exact absurd (List.mem_flatMap.2 ⟨c', hc', List.mem_flatMap.2 ⟨e', he', by rw [owned_obj ho', ha']; exact List.mem_cons_self ..⟩⟩) hs.real
  simp only [use, usable, h4] at h3
  cases h3

/-- **C102** fails for particle ids of clusters that have fewer parameters than their algorithm has names: reading behind the end is undefined. (For reconstructed particles the sizes are
compared.) -/
theorem C102_fails_for_few_parameters (cols : List (Str × Collection)) (hs : Sound cols) (c : Str × Collection) (hc : c ∈ cols) (e : Elem) (he : e ∈ c.2.elems.take 1000) (o : Cluster)
    (ho : e.obj = some (.cluster o)) (i : Pid) (hi : i ∈ o.pids) (handler : PidHandler) (hh : (PidHandler.new c.2.type c.2.params).1 = .ok handler) (names : List Str)
    (hn : handler.getParameterNames i.algorithmType.toInt = .ok names) (hl : i.params.length < names.length) : dumpEventDetailed cols ≠ .ok () := by
  intro h
  have ht : str "Cluster" = c.2.type := hs.classes c hc e (List.mem_of_mem_take he) _ ho
  have hk : kindOf c.2.type = some .cluster := by rw [← ht]; decide
  have h1 := ((dumpEventDetailed_iff cols).1 h c hc _ hk).2.2
  rw [printTail, if_pos (Or.inl rfl), hh] at h1
  have h2 := (forEach_ok _ _).1 h1 e (take_printed _ c.2 he)
  have h3 : elementAs cols c.2.type e = some (.cluster o) := by
    have : castsTo c.2.type (.cluster o) = true := by rw [← ht]; rfl
    simp only [elementAs, ho, dynCast, this, if_true]
  simp only [showPids, h3] at h2
  have h4 := (forEach_ok _ _).1 h2 i hi
  simp only [showClusterPid, hn] at h4
  rw [if_neg (by omega)] at h4
  cases h4

/-- **C102** fails for collections of hits with cell ids if the parameter that says how to decode them is not valid: the exception of the decoder is not caught, even if there are no hits. -/
theorem C102_fails_for_bad_encoding (cols : List (Str × Collection)) (c : Str × Collection) (hc : c ∈ cols)
    (ht : c.2.type ∈ [str "TrackerRawData", str "TrackerData", str "TrackerPulse", str "SimCalorimeterHit", str "CalorimeterHit", str "RawCalorimeterHit"])
    (s : Str) (rest : List Str) (hp : omFind strLt (str "CellIDEncoding") c.2.params.strs = some (s :: rest)) (h0 : s ≠ []) (err : Err) (hb : BitField.make s = .error err) :
    dumpEventDetailed cols ≠ .ok () := by
  intro h
  have hd : ¬ works (decoderOfCollection (some c.2)) = .ok () := by
    have hv : getVal [] c.2.params.strs encodingKey = .ok s := by simp only [getVal, encodingKey, hp]
    have : decoderOfCollection (some c.2) = .error err := by
      simp only [decoderOfCollection, hv, bind, Except.bind]
      rw [if_neg fun h => h0 (List.length_eq_zero_iff.1 h), hb]
    rw [this]
    intro h; cases h
  have key : ∀ T ∈ [str "TrackerRawData", str "TrackerData", str "TrackerPulse", str "SimCalorimeterHit", str "CalorimeterHit", str "RawCalorimeterHit"],
      ∃ k, kindOf T = some k ∧ k ∈ [Kind.trackerRawData, .trackerData, .trackerPulse, .simCalHit, .calHit, .rawCalHit] := by
    intro T hT
    simp only [List.mem_cons, List.not_mem_nil, or_false] at hT
    rcases hT with rfl | rfl | rfl | rfl | rfl | rfl
    · exact ⟨.trackerRawData, by decide, by decide⟩
    · exact ⟨.trackerData, by decide, by decide⟩
    · exact ⟨.trackerPulse, by decide, by decide⟩
    · exact ⟨.simCalHit, by decide, by decide⟩
    · exact ⟨.calHit, by decide, by decide⟩
    · exact ⟨.rawCalHit, by decide, by decide⟩
  obtain ⟨k, hk, hm⟩ := key _ ht
  have h1 := ((dumpEventDetailed_iff cols).1 h c hc k hk).1
  simp only [List.mem_cons, List.not_mem_nil, or_false] at hm
  rcases hm with rfl | rfl | rfl | rfl | rfl | rfl <;> exact hd h1

/-! ## Examples -/

/-- The objects of an event with their addresses. -/
def heldObjects (cols : List (Str × Collection)) : List (Nat × Obj) := (allElems cols).filterMap fun e => e.obj.map fun o => (e.addr, o)

theorem holds_iff (cols : List (Str × Collection)) (p : Nat) (o : Obj) : HasObject cols p o ↔ (p, o) ∈ heldObjects cols := by
  simp only [HasObject, heldObjects, List.mem_filterMap, allElems_mem, Option.map_eq_some_iff, Prod.mk.injEq]
  constructor
  · rintro ⟨c, hc, e, he, rfl, ho⟩
    exact ⟨e, ⟨c, hc, he⟩, o, ho, rfl, rfl⟩
  · rintro ⟨e, ⟨c, hc, he⟩, o', ho, rfl, rfl⟩
    exact ⟨c, hc, e, he, rfl, ho⟩

instance (T : Str) (o : Obj) : Decidable (OfClass T o) := by unfold OfClass; infer_instance

/-- A check for the pointers. -/
def leadsTo (cols : List (Str × Collection)) (p : Nat) (T : Str) : Bool := (heldObjects cols).any fun x => x.1 == p && decide (OfClass T x.2)

theorem leadsTo_of {cols : List (Str × Collection)} {p : Nat} {T : Str} (h : leadsTo cols p T = true) : ∃ o, HasObject cols p o ∧ OfClass T o := by
  obtain ⟨x, hx, h⟩ := List.any_eq_true.1 h
  rw [Bool.and_eq_true, beq_iff_eq, decide_eq_true_eq] at h
  exact ⟨x.2, (holds_iff _ _ _).2 (by rw [← h.1]; exact hx), h.2⟩

/-- An algorithm with two parameters. -/
def shapeParams : Params := { ints := [(str "PIDAlgorithmTypeID", [3])], strs := [(str "PIDAlgorithmTypeName", [str "shape"]), (str "ParameterNames_shape", [str "width", str "depth"])] }

/-- A shower of a particle, with all that was reconstructed of it. -/
def shownCols : List (Str × Collection) :=
  [(str "Calo", { type := str "CalorimeterHit", flag := 0x80000000, params := { strs := [(str "CellIDEncoding", [str "layer:8,x:12,y:12"])] }, elems := [⟨1, some (.calHit {})⟩, ⟨2, some (.calHit {})⟩] }),
   (str "Clusters", { type := str "Cluster", flag := 0x80000000, params := shapeParams, elems := [⟨10, some (.cluster { hits := [1, 2], weights := [0, 0], pids := [{ algorithmType := 3, params := [5, 6] }, { algorithmType := 9 }] })⟩] }),
   (str "MC", { type := str "MCParticle", elems := [⟨20, some (.mcParticle { daughters := [21] })⟩, ⟨21, some (.mcParticle { parents := [20] })⟩] }),
   (str "Photons", { type := str "MCParticle", flag := 0x40000, elems := [⟨21, none⟩] }),
   (str "Reco", { type := str "ReconstructedParticle", elems := [⟨30, some (.recoParticle { clusters := [10], particles := [31], pids := [{ addr := 40 }], pidUsed := 40 })⟩,
      ⟨31, some (.recoParticle { startVertex := 50 })⟩] }),
   (str "Truth", { type := str "LCRelation", elems := [⟨60, some (.relation { from_ := 30, «to» := 20 })⟩] }),
   (str "Vertices", { type := str "Vertex", elems := [⟨50, some (.vertex { particle := 30 })⟩] })]

theorem shown_sound : Sound shownCols := by
  refine ⟨?_, ?_, by decide +kernel, by decide +kernel, by decide +kernel⟩
  · have : (shownCols.all fun c => c.2.elems.all fun e => (e.obj.map fun o => (classOf o).1 == c.2.type).getD true) = true := by decide +kernel
    intro c hc e he o ho
    have := List.all_eq_true.1 (List.all_eq_true.1 this c hc) e he
    rw [ho] at this
    exact beq_iff_eq.1 this
  · exact (by decide +kernel : ∀ c ∈ shownCols, ∀ e ∈ c.2.elems, (e.obj = none ↔ c.2.flag.getLsbD 18 = true))

theorem omFind_entry {α : Type} {key : Str} {m : List (Str × List α)} {l : List α} (h : omFind strLt key m = some l) : ∃ x ∈ m, eqv strLt x.1 key = true ∧ x.2 = l := by
  obtain ⟨x, hx, e⟩ := Option.map_eq_some_iff.1 h
  exact ⟨x, List.mem_of_find?_eq_some hx, List.find?_some (p := fun e : Str × List α => eqv strLt e.1 key) hx, e⟩

theorem shown_printable : Printable shownCols := by
  have hp : ∀ x ∈ heldObjects shownCols, ∀ q ∈ typedPointers x.2, q.1 = 0 ∨ leadsTo shownCols q.1 q.2 = true := by decide +kernel
  have hs : ∀ c ∈ shownCols, ∀ e ∈ c.2.elems, e.obj = none → leadsTo shownCols e.addr c.2.type = true := by decide +kernel
  refine ⟨fun c hc e he h0 => leadsTo_of (hs c hc e he h0), fun p o ho q hq => (hp (p, o) ((holds_iff _ _ _).1 ho) q hq).imp id leadsTo_of, ?_, ?_, ?_, ?_, ?_, ?_, ?_⟩
  · have : ∀ x ∈ heldObjects shownCols, (match x.2 with
        | .recoParticle o => o.pidUsed == 0 || o.pidUsed == 40
        | _ => true) = true := by decide +kernel
    intro p o ho
    have := this (p, _) ((holds_iff _ _ _).1 ho)
    simp only [Bool.or_eq_true, beq_iff_eq] at this
    refine this.imp id fun h => ⟨30, _, (holds_iff _ _ _).2 (by decide +kernel : (30, Obj.recoParticle { clusters := [10], particles := [31], pids := [{ addr := 40 }], pidUsed := 40 }) ∈ heldObjects shownCols),
      _, List.mem_singleton.2 rfl, h.symm⟩
  · have : ∀ x ∈ heldObjects shownCols, (match x.2 with
        | .recoParticle o => decide (0 ∉ o.particles)
        | _ => true) = true := by decide +kernel
    intro p o ho
    exact of_decide_eq_true (this (p, _) ((holds_iff _ _ _).1 ho))
  · have : ∀ x ∈ heldObjects shownCols, (match x.2 with
        | .mcParticle o => decide (0 ∉ o.daughters)
        | _ => true) = true := by decide +kernel
    intro p o ho
    exact of_decide_eq_true (this (p, _) ((holds_iff _ _ _).1 ho))
  · have : ∀ x ∈ heldObjects shownCols, (match x.2 with
        | .cluster o => decide (o.hits.length ≤ o.weights.length)
        | _ => true) = true := by decide +kernel
    intro p o ho
    exact of_decide_eq_true (this (p, _) ((holds_iff _ _ _).1 ho))
  · have : ∀ c ∈ shownCols, ∀ x ∈ c.2.params.strs, x.2 ≠ [] := by decide +kernel
    intro c hc key h
    obtain ⟨x, hx, _, e⟩ := omFind_entry h
    exact this c hc x hx e
  · have : ∀ c ∈ shownCols, ∀ x ∈ c.2.params.strs, eqv strLt x.1 (str "CellIDEncoding") = true → (match x.2 with
        | s :: _ => (BitField.make s).isOk
        | [] => false) = true := by decide +kernel
    intro c hc s rest h
    obtain ⟨x, hx, hk, e⟩ := omFind_entry h
    have := this c hc x hx hk
    rw [e] at this
    right
    cases hb : BitField.make s with
    | ok b => exact ⟨b, rfl⟩
    | error _ => simp only [hb] at this; cases this
  · have : ∀ c ∈ shownCols, (c.2.type = str "Cluster" ∨ c.2.type = str "ReconstructedParticle") → (match (PidHandler.new c.2.type c.2.params).1 with
        | .ok h => decide (∀ x ∈ heldObjects shownCols, (match x.2 with
          | .cluster o => o.pids.all fun i => match h.getParameterNames i.algorithmType.toInt with
            | .ok names => decide (names.length ≤ i.params.length)
            | .error _ => true
          | _ => true) = true)
        | .error _ => false) = true := by decide +kernel
    intro c hc ht
    have := this c hc ht
    cases hn : (PidHandler.new c.2.type c.2.params).1 with
    | error _ => rw [hn] at this; cases this
    | ok h =>
      rw [hn] at this
      refine ⟨h, rfl, fun e he o ho i hi names hnames => ?_⟩
      have hh : HasObject shownCols e.addr (.cluster o) := ho.elim (fun h => ⟨c, hc, e, he, rfl, h⟩) (·.2)
      have := List.all_eq_true.1 (of_decide_eq_true this (e.addr, _) ((holds_iff _ _ _).1 hh)) i hi
      rw [hnames] at this
      exact of_decide_eq_true this

example : dumpEventDetailed shownCols = .ok () := C102_partial shownCols shown_sound shown_printable

/-- Tracks and a subset of them. -/
def pickedCols : List (Str × Collection) :=
  [(str "All", { type := str "Track", elems := [⟨5, some (.track {})⟩, ⟨6, some (.track {})⟩] }), (str "Good", { type := str "Track", flag := 0x40000, elems := [⟨6, none⟩] })]
def pickedFile : List Byte :=
  recordBytes headerRecordName [EventHeader.block [] { cols := colHeads pickedCols }] ++ recordBytes eventRecordName (eventBlocks ieee [] pickedCols)

/-- What printing does with the first event of a file, if only the collections named are read, and null pointers in subset collections are ignored or not. -/
def printFirst (ignoreNull : Bool) (wanted : List Str) (file : List Byte) : Option (Except Err Unit) :=
  match ((Reader.openFiles { cutCfg with ignoreNull := ignoreNull, wanted := wanted } false [(str "f", file)]).2.readNextEvent { cutCfg with ignoreNull := ignoreNull, wanted := wanted }).1 with
  | .ok (some e) => some (dumpEventDetailed e.2)
  | _ => none

instance : DecidableEq (Except Err Unit) := fun a b => match a, b with
  | .ok _, .ok _ => isTrue rfl
  | .error x, .error y => if h : x = y then isTrue (h ▸ rfl) else isFalse fun e => h (Except.error.inj e)
  | .ok _, .error _ => isFalse fun e => nomatch e
  | .error _, .ok _ => isFalse fun e => nomatch e

/-- The event can be printed when all of it was read. If only the subset was read, then it cannot be read, or, if null pointers are ignored, not be printed. -/
theorem C102_fails_after_reading_a_subset : printFirst false [] pickedFile = some (.ok ()) ∧ printFirst false [str "Good"] pickedFile = none ∧
    printFirst true [str "Good"] pickedFile = some (.error .ub) := by decide +kernel

/-- Particles, and a jet of them. -/
def jetCols : List (Str × Collection) :=
  [(str "Jets", { type := str "ReconstructedParticle", elems := [⟨7, some (.recoParticle { particles := [5, 6] })⟩] }),
   (str "Particles", { type := str "ReconstructedParticle", elems := [⟨5, some (.recoParticle {})⟩, ⟨6, some (.recoParticle {})⟩] })]
def jetFile : List Byte := recordBytes headerRecordName [EventHeader.block [] { cols := colHeads jetCols }] ++ recordBytes eventRecordName (eventBlocks ieee [] jetCols)

/-- An event with jets can be printed when all of it was read, but not if only the jets were read. -/
theorem C102_fails_after_reading_jets : printFirst false [] jetFile = some (.ok ()) ∧ printFirst false [str "Jets"] jetFile = some (.error .ub) := by decide +kernel

example : dumpEventDetailed [(str "R", { type := str "ReconstructedParticle", elems := [⟨1, some (.recoParticle { particles := [0] })⟩] })] = .error .ub := by decide +kernel
example : dumpEventDetailed [(str "C", { type := str "Cluster", params := shapeParams, elems := [⟨1, some (.cluster { pids := [{ algorithmType := 3, params := [5] }] })⟩] })] = .error .ub := by decide +kernel
example : dumpEventDetailed [(str "H", { type := str "CalorimeterHit", params := { strs := [(str "CellIDEncoding", [str "layer"])] } })] = .error .lcException := by decide +kernel

/-! ## User objects (C103) -/

/-- The description of a collection of user objects, as it is printed above them. -/
def described (c : Collection) (d : Str) : Str := str " [   id   ] " ++ d ++ str " - isFixedSize: " ++ (if c.flag.getLsbD 31 then str "true" else str "false") ++ [10]

theorem ownHeader_eq (c : Collection) (d : Str) (rest : List Str) (h : omFind strLt (str "DataDescription") c.params.strs = some (d :: rest)) : ownHeader c = .ok (described c d) := by
  simp only [ownHeader, getVal, h]
  rfl

/-- **C103** (partial): the first collection of user objects that a program prints has its own description above it. -/
theorem C103_first_partial (c : Collection) (cs : List Collection) (d : Str) (rest : List Str) (h : omFind strLt (str "DataDescription") c.params.strs = some (d :: rest)) (hs : List Str)
    (hr : genericHeaders none (c :: cs) = .ok hs) : hs.head? = some (described c d) := by
  simp only [genericHeaders, genericHeader, ownHeader_eq c d rest h, Option.getD_none] at hr
  split at hr
  · cases hr
  · cases hr; rfl

/-- **C103** fails for all others: whatever they are, they have the description of the first one above them. -/
theorem C103_fails_for_others (made : Str) : ∀ (cs : List Collection) (hs : List Str), genericHeaders (some made) cs = .ok hs → hs = List.replicate cs.length made
  | [], hs, h => by cases h; rfl
  | c :: cs, hs, h => by
    simp only [genericHeaders, genericHeader] at h
    cases ho : ownHeader c with
    | error e => simp only [ho] at h; cases h
    | ok x =>
      simp only [ho, Option.getD_some] at h
      cases hg : genericHeaders (some made) cs with
      | error e => simp only [hg] at h; cases h
      | ok l =>
        simp only [hg] at h
        cases h
        rw [C103_fails_for_others made cs l hg]
        rfl

example : genericHeaders none [{ type := str "LCGenericObject", params := { strs := [(str "DataDescription", [str "i:n"])] } },
    { type := str "LCGenericObject", flag := 0x80000000, params := { strs := [(str "DataDescription", [str "f:x,f:y"])] } }] =
    .ok [str " [   id   ] i:n - isFixedSize: false" ++ [10], str " [   id   ] i:n - isFixedSize: false" ++ [10]] := by rfl

end Props
