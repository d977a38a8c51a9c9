import Verif.Lcio.SoundReader
import Verif.Util.TypeName
import Verif.Props.Damage
import Verif.Props.Iterator
/-
C99: what can be relied on in events that have been read. C100: names of types.
-/
namespace Props
open Sio Spec Lcio Util

/-- **C99**: every event that a reader gives is sound, whatever is in the files and whatever has been called before. -/
theorem C99_events (cfg : RConfig) (hc : SafeCodec cfg.codec) (hs : ∀ l, (cfg.std.sort l).Perm l) (files : List (Str × List Byte)) (once : ∀ f ∈ files, OnceIn cfg f.2)
    (r : Reader) (hr : Reached cfg files r) :
    (∀ e, (r.readNextEvent cfg).1 = .ok (some e) → Sound e.2) ∧
    (∀ run evt e, (r.readEvent cfg run evt).1 = .ok (some e) → Sound e.2) ∧
    ∀ listeners maxRecord, ∀ d ∈ (r.readStream cfg listeners maxRecord).1, ∀ e, d.2 = Delivery.event e → Sound e.2 := by
  have on := reached_on cfg hc hr
  have hG : FromFiles cfg files fun e => Sound e.2 := fun f hf hdr e0 e hI h => finished_sound hs (once f hf) hI h
  exact ⟨readNextEvent_from cfg hc hG r on, fun run evt => readEvent_from cfg hc hG r run evt on, fun l m => readStream_from cfg hc hG r l m on⟩

theorem castsTo_class (o : Obj) : castsTo (classOf o).1 o = true := by cases o <;> (simp only [castsTo, classOf]; decide)

/-- **C99** for typed vectors: a typed vector for the type of a collection of such an event has all its elements. -/
theorem C99_typed_vector (cols : List (Str × Collection)) (h : Sound cols) (c : Str × Collection) (hc : c ∈ cols) (hf : c.2.flag.getLsbD 18 = false) (hn : c.2.elems.length < 2 ^ 31) :
    typedVector (castsTo c.2.type) (c.2.elems.map (·.obj)) = .ok (c.2.elems.map (·.obj)) ∧ ∀ e ∈ c.2.elems, e.obj ≠ none := by
  have hno : ∀ e ∈ c.2.elems, e.obj ≠ none := fun e he h0 => by
    have := (h.objects c hc e he).1 h0
    rw [hf] at this
    cases this
  have hcast : ∀ e ∈ c.2.elems, dynCast (castsTo c.2.type) e.obj = e.obj := by
    intro e he
    cases ho : e.obj with
    | none => rfl
    | some o =>
      show (if castsTo c.2.type o = true then some o else none) = some o
      rw [if_pos]
      rw [← h.classes c hc e he o ho]
      exact castsTo_class o
  refine ⟨?_, hno⟩
  rw [(typedVector_ok _ _ (by rw [List.length_map]; exact hn)).2]
  · rw [List.map_map]
    congr 1
    exact List.map_congr_left fun e he => hcast e he
  · intro p hp
    rw [List.head?_map] at hp
    obtain ⟨e, he, rfl⟩ := Option.map_eq_some_iff.1 hp
    have hm := List.mem_of_head? he
    rw [hcast e hm]
    exact hno e hm

/-! ## A complete event -/

/-- The standard library of the examples keeps all elements when it sorts. -/
theorem ieee_sort_perm (l : List Pid) : (ieee.sort l).Perm l := by
  have key : ∀ (l acc : List Pid), (l.foldl (fun acc p => pidInsert p acc) acc).Perm (acc ++ l) := by
    intro l
    induction l with
    | nil => intro acc; rw [List.append_nil]; exact List.Perm.refl _
    | cons p l ih => intro acc; exact (ih _).trans (((pidInsert_perm p acc).append_right l).trans List.perm_middle.symm)
  exact key l []

def wholeRecs : List Byte := recordBytes eventRecordName [⟨str "A", blockVersion, (mcCol [(11, []), (12, [11])]).write ieee⟩]
def wholeFile : List Byte := cutHeader ++ wholeRecs

theorem whole_held {p : Nat} {info : RecordInfo} {data : List Byte} (h : HeldAt wholeFile p info data) :
    (info = cutRec1.info 0 ∧ data = cutRec1.data) ∨ (info = cutRec2.info 136 ∧ data = cutRec2.data) := by
  obtain ⟨⟨buf, h1⟩, h2, h3⟩ := h
  obtain ⟨k1, k2⟩ := readRecordInfo_marker _ _ _ _ h1
  have hp : p = 0 ∨ p = 136 := by
    have : ∀ p < wholeFile.length, wordAt wholeFile (p + 4) = 0xabadcafe → p = 0 ∨ p = 136 := by decide +kernel
    exact this p k1 k2
  rcases hp with rfl | rfl
  · have e : wholeFile = [] ++ cutRec1.header ++ wholeFile.drop 40 := by decide +kernel
    have hr : cutRec1.Ok := ⟨by decide +kernel, by decide +kernel, by decide +kernel, fun _ => by decide +kernel⟩
    have := readRecordInfo_eq buf [] (wholeFile.drop 40) cutRec1 hr 0 rfl
    rw [← e] at this
    change readRecordInfo { bytes := wholeFile, pos := 0 } buf = _ at this
    rw [this] at h1
    cases h1
    exact Or.inl ⟨rfl, by rw [h2]; decide +kernel⟩
  · have e : wholeFile = cutHeader ++ cutRec2.header ++ wholeFile.drop 168 := by decide +kernel
    have hr : cutRec2.Ok := ⟨by decide +kernel, by decide +kernel, by decide +kernel, fun _ => by decide +kernel⟩
    have := readRecordInfo_eq buf cutHeader (wholeFile.drop 168) cutRec2 hr 136 (by decide +kernel)
    rw [← e] at this
    change readRecordInfo { bytes := wholeFile, pos := 136 } buf = _ at this
    rw [this] at h1
    cases h1
    exact Or.inr ⟨rfl, by rw [h2]; decide +kernel⟩

theorem whole_recorded {name : Str} {data : List Byte} (h : Recorded cutCodec wholeFile name data) :
    (name = headerRecordName ∧ data = cutRec1.data) ∨ (name = eventRecordName ∧ data = cutRec2.data) := by
  obtain ⟨p, info, stored, h, rfl, hp⟩ := h
  rcases whole_held h with ⟨h1, h2⟩ | ⟨h1, h2⟩
  · have : plainData cutCodec info stored = .ok stored := by rw [h1]; rfl
    rw [this, h2] at hp
    exact Or.inl ⟨by rw [h1]; rfl, (Except.ok.inj hp).symm⟩
  · have : plainData cutCodec info stored = .ok stored := by rw [h1]; rfl
    rw [this, h2] at hp
    exact Or.inr ⟨by rw [h1]; rfl, (Except.ok.inj hp).symm⟩

/-- The hypotheses of C99 are met by a file with an event with two particles. -/
theorem whole_once : OnceIn cutCfg wholeFile := by
  intro hdata hdr data h1 h2 h3 res hres
  have d1 := ((whole_recorded h1).resolve_right fun h => absurd h.1 (by decide)).2
  have d2 := ((whole_recorded h3).resolve_left fun h => absurd h.1 (by decide)).2
  rw [d1] at h2
  rw [d2] at hres
  have e1 : (match decodeHeader cutCfg cutRec1.data with
    | .ok h => (match readBlocks cutRec2.data (eventDecoders cutCfg.std h.cols) with
      | .ok r => decide (r.1.map (·.1)).Nodup
      | _ => true)
    | _ => true) = true := by decide +kernel
  rw [h2] at e1
  simp only at e1
  rw [hres] at e1
  exact of_decide_eq_true e1

example : (match firstEvent wholeFile with
    | .ok (some e) => decide (objectsIn e.2 = [1, 2] ∧ pointersIn e.2 = [2, 1])
    | _ => false) = true := by decide +kernel
example (r : Reader) (h : Reached cutCfg [(str "f", wholeFile)] r) (e : EventData) (he : (r.readNextEvent cutCfg).1 = .ok (some e)) : Sound e.2 :=
  (C99_events cutCfg cutCodec_careful ieee_sort_perm _ (by simp only [List.mem_singleton, forall_eq]; exact whole_once) r h).1 e he

/-! ## Pointers to objects of another class -/

/-- A track whose hits are, in the file, particles. -/
def oddCols : List (Str × Collection) :=
  [(str "A", mcCol [(11, [])]), (str "B", { type := str "Track", flag := 0x80000000, elems := [⟨30, some (.track { hits := [11] })⟩] })]
def oddFile : List Byte :=
  recordBytes headerRecordName [EventHeader.block [] { cols := colHeads oddCols }] ++ recordBytes eventRecordName (eventBlocks ieee [] oddCols)

/-- The object at an address. -/
def objectAt (cols : List (Str × Collection)) (a : Nat) : Option Obj := (allElems cols).findSome? fun e => if e.addr = a then e.obj else none

/-- **C99** fails for the classes of objects that are pointed at: they are what the file says. In an event that was read from a file (which no call of LCIO has to have written) the
hit of a track can be an MCParticle, and using it as a TrackerHit is undefined. -/
theorem C99_fails_for_classes_of_pointers : (match firstEvent oddFile with
    | .ok (some e) => e.2.any fun c => c.2.elems.any fun x => match x.obj with
      | some (.track t) => t.hits.any fun a => match objectAt e.2 a with
        | some o => !castsTo (str "TrackerHit") o && castsTo (str "MCParticle") o
        | none => false
      | _ => false
    | _ => false) = true := by decide +kernel

/-! ## Names of types -/

/-- **C100** for all objects but three kinds: the name is the one of the class. -/
theorem C100_typename_partial (o : Obj) (h : (classOf o).1 ∉ [str "TPCHit", str "TrackerHitPlane", str "TrackerHitZCylinder"]) : lctypename o = (classOf o).1 := by
  cases o <;> first
    | (simp only [lctypename, castsTo, classOf]; decide)
    | exact absurd (by simp only [classOf]; decide) h

/-- **C100** for all objects: two objects of the same class have the same name, and objects whose names are the same (and not "UNKNOWN") can be used as objects of this class. -/
theorem C100_usable (o : Obj) (h : lctypename o ≠ str "UNKNOWN") : castsTo (lctypename o) o = true := by
  unfold lctypename at h ⊢
  split
  · rename_i T hT
    exact List.find?_some (p := fun T => castsTo T o) hT
  · rename_i hT
    rw [hT] at h
    exact absurd rfl h

/-- **C100** for events that have been read: the names are the types of the collections. -/
theorem C100_collections_partial (cols : List (Str × Collection)) (h : Sound cols) (c : Str × Collection) (hc : c ∈ cols)
    (ht : c.2.type ∉ [str "TPCHit", str "TrackerHitPlane", str "TrackerHitZCylinder"]) (e : Elem) (he : e ∈ c.2.elems) (o : Obj) (ho : e.obj = some o) : lctypename o = c.2.type := by
  have := h.classes c hc e he o ho
  rw [← this] at ht ⊢
  exact C100_typename_partial o ht

/-- **C100** fails for hits in planes and on cylinders, which are reported as "TrackerHit", because this is tried first; and for TPC hits, which are not tried. -/
theorem C100_fails_for_three_classes :
    (∀ o, lctypename (.trackerHitPlane o) = str "TrackerHit") ∧ (∀ o, lctypename (.trackerHitZCylinder o) = str "TrackerHit") ∧ ∀ o, lctypename (.tpcHit o) = str "UNKNOWN" := by
  refine ⟨fun o => ?_, fun o => ?_, fun o => ?_⟩ <;> (simp only [lctypename, castsTo]; decide)

end Props
