import Verif.Util.StdHepNewLemmas
import Verif.Props.StdHep
/-
C79: the second reader of StdHep files.
-/
namespace Props
open Sio Util Spec Lcio

/-- The results of `n` calls of `LCStdHepRdrNew::readEvent`. -/
def hepCollectionsNew (ar : HepArith) (fuel : Nat) : Nat → LStdHep → Except Err (List (Option HepCollection))
  | 0, _ => .ok []
  | n + 1, s =>
    match hepReadEventNew ar fuel s with
    | .error e => .error e
    | .ok (r, s) => (hepCollectionsNew ar fuel n s).map (r :: ·)

/-- The results of calls of `LCStdHepRdrNew::updateNextEvent` with `n` new events, up to an exception. -/
def hepUpdatesNew (ar : HepArith) (fuel : Nat) (writeNumber : Bool) : Nat → LStdHep → List (Int × W32 × HepCollection × Option Int) × Option Err
  | 0, _ => ([], none)
  | n + 1, s =>
    match hepUpdateNextNew ar fuel writeNumber s with
    | .error e => ([], some e)
    | .ok (r, s) => let (rs, e) := hepUpdatesNew ar fuel writeNumber n s; (r :: rs, e)

theorem hepReadEventNew_exhausted (ar : HepArith) {fuel : Nat} (hf : 0 < fuel) (s : LStdHep) (h : Exhausted fuel s) :
    ∃ s', hepReadEventNew ar fuel s = .ok (none, s') ∧ Exhausted fuel s' := by
  obtain ⟨s', h1, h2, h3⟩ := exhausted_read hf h
  refine ⟨s', ?_, h3⟩
  rw [hepReadEventNew, h1]
  simp only
  rw [if_pos (by rw [h2]; decide), if_neg (by rw [h2]; simp)]

theorem hepCollectionsNew_exhausted (ar : HepArith) {fuel : Nat} (hf : 0 < fuel) : ∀ (n : Nat) (s : LStdHep), Exhausted fuel s →
    hepCollectionsNew ar fuel n s = .ok (List.replicate n none) := by
  intro n
  induction n with
  | zero => intro s _; rfl
  | succ n ih =>
    intro s h
    obtain ⟨s', h1, h3⟩ := hepReadEventNew_exhausted ar hf s h
    rw [hepCollectionsNew, h1]
    simp only
    rw [ih s' h3]; rfl

/-- A collection is another one with more relations: those of the entries of an event to their mothers, unless they are overlooked. -/
structure MothersAdded (e : HepEvent) (c c' : HepCollection) : Prop where
  particles : c'.particles = c.particles
  process : c'.idrup = c.idrup
  weight : c'.weight = c.weight
  relatives : WithMothers e (fun t => if Overlooked t then [] else namedMothers t) c.relatives c'.relatives

/-- The same for lists of events and collections. -/
def AllMothersAdded (es : List HepEvent) (cs cs' : List HepCollection) : Prop :=
  cs'.length = cs.length ∧ ∀ (i : Nat) e c c', es[i]? = some e → cs[i]? = some c → cs'[i]? = some c' → MothersAdded e c c'

theorem hepCollectionsNew_ready (ar : HepArith) {fuel : Nat} (file : List Byte) (extra : Nat) (w : Bool) : ∀ (es : List (Int × HepEvent)) (s : LStdHep) (t : HepTable) (i : Nat)
    (ts : List HepTable) (k : W64 × W64 × W64 × Int), Ready s file t i ts k.1 k.2.1 k.2.2.1 k.2.2.2 → (remaining t i ts).length + ts.length < fuel →
    eventsOf (remaining t i ts) = es → (∀ e ∈ es, Usable e.2.reduced ∧ UsableMothers e.2) →
    ∃ cs cs', hepCollections ar fuel (es.length + extra) s = .ok (cs.map some ++ List.replicate extra none) ∧
      AllConverted ar (k.1, k.2.2.2) (es.map (·.2.reduced)) cs ∧
      hepCollectionsNew ar fuel (es.length + extra) s = .ok (cs'.map some ++ List.replicate extra none) ∧
      hepUpdatesNew ar fuel w (es.length + (extra + 1)) s =
        (List.zipWith (fun (e : Int × HepEvent) c => (c.idrup.getD 0, ar.narrow (ar.widen c.weight), c, if w then some (BitVec.ofInt 32 e.2.number).toInt else none)) es cs', some .endOfData) ∧
      AllMothersAdded (es.map (·.2)) cs cs' := by
  intro es
  induction es with
  | nil =>
    intro s t i ts k h hl he hu
    have hx : Exhausted fuel s := Or.inr ⟨file, t, i, ts, _, _, _, _, h, hl, he⟩
    refine ⟨[], [], ?_, ⟨rfl, fun i e c wp h1 => by cases h1⟩, ?_, ?_, rfl, fun i e c c' h1 => by cases h1⟩
    · rw [List.length_nil, Nat.zero_add, hepCollections_exhausted ar (by omega) extra s hx]; rfl
    · rw [List.length_nil, Nat.zero_add, hepCollectionsNew_exhausted ar (by omega) extra s hx]; rfl
    · obtain ⟨s', h1, _⟩ := hepReadEventNew_exhausted ar (show 0 < fuel by omega) s hx
      rw [List.length_nil, Nat.zero_add, hepUpdatesNew, hepUpdateNextNew, h1]
      rfl
  | cons e es ih =>
    intro s t i ts k h hl he hu
    obtain ⟨r, e⟩ := e
    obtain ⟨s', t', i', ts', h1, h2, h3, h4, h5, _⟩ := (readLoop_spec file k fuel _ t i ts (ready_empty h) hl).2 r e es he
    have h1 : s.readEvent fuel = .ok s' := h1
    obtain ⟨hu1, hu2⟩ := hu (r, e) List.mem_cons_self
    obtain ⟨c, c', c1, c2, c3, c4, c5, c6, c7⟩ := hepCollectionNew_spec ar s'.event e h5 hu1 hu2
    have hr : hepReadEvent ar fuel s = .ok (some c, s') := by
      rw [hepReadEvent, h1]
      simp only
      rw [if_neg (by rw [h2.err]; decide), c1]
    have hr' : hepReadEventNew ar fuel s = .ok (some c', s') := by
      rw [hepReadEventNew, h1]
      simp only
      rw [if_neg (by rw [h2.err]; decide), c3]
    obtain ⟨cs, cs', d1, d2, d3, d4, d5, d6⟩ := ih s' t' i' ts' (nextKept e k) h2 (by omega) h3 fun e he => hu e (by simp [he])
    refine ⟨c :: cs, c' :: cs', ?_, ?_, ?_, ?_, by simp [d5], ?_⟩
    · rw [List.length_cons, Nat.add_right_comm, hepCollections, hr]
      simp only
      rw [d1]; rfl
    · rw [h2.kept.weight, h2.kept.process] at c2
      exact AllConverted.cons (e := e.reduced) c2 d2
    · rw [List.length_cons, Nat.add_right_comm, hepCollectionsNew, hr']
      simp only
      rw [d3]; rfl
    · rw [List.length_cons, Nat.add_right_comm, hepUpdatesNew, hepUpdateNextNew, hr']
      simp only
      rw [d4, h5.number]; rfl
    · intro i e' x x' g1 g2 g3
      cases i with
      | zero => cases g1; cases g2; cases g3; exact ⟨c4, c5, c6, c7⟩
      | succ i => exact d6 i e' x x' g1 g2 g3

/-- Numbers of events on files have 32 bits. -/
theorem number_int32 (f : HepFile) (file : List Byte) (h : f.In file) : ∀ e ∈ f.events, IsInt32 e.2.number := by
  have hrec : ∀ r ∈ f.records, ∃ pos, StoredAt file pos r.items := by
    have htab : ∀ (t : HepTable), t.Points file → ∀ r ∈ t.entries.map (·.2), ∃ pos, StoredAt file pos r.items := by
      intro t ht r hr
      obtain ⟨x, hx, rfl⟩ := List.mem_map.1 hr
      exact ⟨_, ht x hx⟩
    have hts : ∀ n ts, HepTables file n ts → ∀ t ∈ ts, t.Points file := by
      intro n ts hts
      induction hts with
      | nil => intro t ht; cases ht
      | cons pos t ts h1 h2 h3 ih =>
        intro t' ht'
        rcases List.mem_cons.1 ht' with rfl | ht'
        · exact h2
        · exact ih t' ht'
    intro r hr
    unfold HepFile.records at hr
    obtain ⟨t, ht, hr⟩ := List.mem_flatMap.1 hr
    rcases List.mem_cons.1 ht with rfl | ht
    · exact htab _ h.points r hr
    · exact htab t (hts _ _ h.tables t ht) r hr
  intro e he
  unfold HepFile.events eventsOf at he
  obtain ⟨r, hr, hre⟩ := List.mem_filterMap.1 he
  obtain ⟨pos, hok, _⟩ := hrec r hr
  cases hev : r.event with
  | none => rw [hev] at hre; cases hre
  | some ev =>
    rw [hev] at hre
    cases hre
    have hin : XdrItem.long ev.number ∈ r.items := by
      unfold HepRecord.items
      refine List.mem_append_right _ (List.mem_flatMap.2 ⟨(ev.code, ev.items), ?_, ?_⟩)
      · unfold HepRecord.blocks; rw [hev]; simp
      · refine List.mem_append_right _ ?_
        unfold HepEvent.items; simp
    exact hok _ hin

/-- **C79**: the collections that `LCStdHepRdrNew` makes of the events of a file are those of `LCStdHepRdr` (C69), with the same particles, process numbers and
weights, and with further relations: each entry gets the mothers it names as parents, each once and both ways, unless they are its parents already. The
numbers of mothers are not reduced to four digits. `updateNextEvent` adds the same collections, gives the events the numbers on the file if it is asked to, and throws
`EndOfDataException` behind the last event. What is missing: mothers that are `Overlooked` are not made parents, see `C79_fails_for_first_particle` and
`C79_fails_for_other_mothers`; numbers that are not those of particles, see `C79_fails_for_wrong_mothers`. -/
theorem C79_collections_partial (ar : HepArith) (f : HepFile) (file : List Byte) (h : f.In file) (hu : ∀ e ∈ f.events, Usable e.2.reduced ∧ UsableMothers e.2)
    (extra fuel : Nat) (hf : f.size < fuel) (writeNumber : Bool) :
    ∃ s cs cs', hepOpen file = .ok s ∧
      hepCollections ar fuel (f.events.length + extra) s = .ok (cs.map some ++ List.replicate extra none) ∧
      AllConverted ar (0, 0) (f.events.map (·.2.reduced)) cs ∧
      hepCollectionsNew ar fuel (f.events.length + extra) s = .ok (cs'.map some ++ List.replicate extra none) ∧
      hepUpdatesNew ar fuel writeNumber (f.events.length + (extra + 1)) s =
        (List.zipWith (fun (e : Int × HepEvent) c => (c.idrup.getD 0, ar.narrow (ar.widen c.weight), c, if writeNumber then some e.2.number else none)) f.events cs',
          some .endOfData) ∧
      AllMothersAdded (f.events.map (·.2)) cs cs' := by
  obtain ⟨s, h1, _, _, h4⟩ := hepOpen_ready f file h
  obtain ⟨cs, cs', d1, d2, d3, d4, d5⟩ := hepCollectionsNew_ready ar file extra writeNumber f.events s f.first 0 f.more (0, 0, 0, 0) h4 (fuel := fuel)
    (by rw [remaining_first]; exact hf) (by rw [remaining_first]; rfl) hu
  refine ⟨s, cs, cs', h1, d1, d2, d3, ?_, d5⟩
  rw [d4]
  have hz : ∀ (es : List (Int × HepEvent)) (cs : List HepCollection), (∀ e ∈ es, IsInt32 e.2.number) →
      List.zipWith (fun (e : Int × HepEvent) c => (c.idrup.getD 0, ar.narrow (ar.widen c.weight), c, if writeNumber then some (BitVec.ofInt 32 e.2.number).toInt else none)) es cs =
      List.zipWith (fun (e : Int × HepEvent) c => (c.idrup.getD 0, ar.narrow (ar.widen c.weight), c, if writeNumber then some e.2.number else none)) es cs := by
    intro es
    induction es with
    | nil => intro cs _; rfl
    | cons e es ih =>
      intro cs hes
      cases cs with
      | nil => rfl
      | cons c cs =>
        have := hes e List.mem_cons_self
        rw [List.zipWith_cons_cons, List.zipWith_cons_cons, ih cs fun e he => hes e (List.mem_cons_of_mem _ he), int32_same e.2.number this.1 (by have := this.2; omega)]
  rw [hz _ _ (number_int32 f file h)]

/-- **C79** where nothing is overlooked: all mothers an entry names are its parents, and it is a daughter of each of them. -/
theorem C79_all_mothers_partial (e : HepEvent) (c c' : HepCollection) (h : MothersAdded e c c') (hr : c.relatives.length = e.tracks.length) (j : Nat) (t : LTrack)
    (ht : e.tracks[j]? = some t) (ho : ¬ Overlooked t) (i : Nat) (hi : i ∈ namedMothers t) (hin : i < e.tracks.length) :
    ∃ a b, c'.relatives[i]? = some a ∧ c'.relatives[j]? = some b ∧ j ∈ a.daughters ∧ i ∈ b.parents := by
  have hl := h.relatives.length
  have hj : j < e.tracks.length := by
    rcases Nat.lt_or_ge j e.tracks.length with h | h
    · exact h
    · rw [List.getElem?_eq_none h] at ht; cases ht
  have ga := List.getElem?_eq_getElem (l := c'.relatives) (i := i) (by omega)
  have gb := List.getElem?_eq_getElem (l := c'.relatives) (i := j) (by omega)
  have g0 := List.getElem?_eq_getElem (l := c.relatives) (i := j) (by omega)
  have hp : i ∈ (c'.relatives[j]'(by omega)).parents := by
    rw [h.relatives.parents j t _ _ ht g0 gb, if_neg ho, List.mem_append, List.mem_filter, decide_eq_true_eq]
    by_cases hc : i ∈ (c.relatives[j]'(by omega)).parents
    · exact Or.inl hc
    · exact Or.inr ⟨hi, hc⟩
  exact ⟨_, _, ga, gb, (h.relatives.symmetric i j _ _ ga gb).2 hp, hp⟩

/-- The sample of C68 and C69 meets the hypotheses. -/
theorem hepSample_mothers : ∀ e ∈ hepSample.events, Usable e.2.reduced ∧ UsableMothers e.2 := by
  intro e he
  refine ⟨hepSample_usable e he, ?_⟩
  have : hepSample.events = [(5, hepEvent1), (5, hepEvent2)] := rfl
  rw [this] at he
  rcases List.mem_cons.1 he with rfl | he
  · exact ⟨by decide, by decide +kernel⟩
  · rcases List.mem_cons.1 he with rfl | he
    · exact ⟨by decide, by decide +kernel⟩
    · cases he

/-- The relations in the collections of the second reader. -/
def hepFamiliesNew (file : List Byte) (n : Nat) : Except Err (List (List (List Nat × List Nat))) :=
  match hepOpen file with
  | .error e => .error e
  | .ok s => match hepCollectionsNew hepTestArith 10 n s with
    | .error e => .error e
    | .ok l => .ok (l.filterMap fun c => c.map hepRelatives)

/-- The numbers of the events. -/
def hepNumbersNew (file : List Byte) (w : Bool) (n : Nat) : List (Option Int) × Option Err :=
  match hepOpen file with
  | .error e => ([], some e)
  | .ok s => let r := hepUpdatesNew hepTestArith 10 w n s; (r.1.map fun x => x.2.2.2, r.2)

def hepIsUb {α : Type} : Except Err α → Bool
  | .error .ub => true
  | _ => false

def familiesAre (r : Except Err (List (List (List Nat × List Nat)))) (l : List (List (List Nat × List Nat))) : Bool :=
  match r with
  | .ok l' => decide (l' = l)
  | .error _ => false

/-- A decay of which only the mothers are given, beside particles with both. -/
def orphans : HepEvent :=
  { number := 1, tracks := [hepTrack 11 3 0 0 0 0 1, hepTrack 23 2 1 1 3 0 1, hepTrack 13 1 2 0 0 0 1, hepTrack (-13) 1 2 0 0 0 1, hepTrack 22 1 1 2 0 0 1] }

example : familiesAre (hepFamiliesNew (hepOne orphans) 1) [[([], [1, 4]), ([0], [2, 3, 4]), ([1], []), ([1], []), ([0, 1], [])]] = true ∧
    hepFamilies (hepOne orphans) 1 = [[([], []), ([], [2]), ([1], []), ([], []), ([], [])]] := by decide +kernel

example : hepNumbersNew hepSampleBytes true 4 = ([some 17, some 18], some .endOfData) ∧ hepNumbersNew hepSampleBytes false 1 = ([none], none) := by decide +kernel

/-- **C79 fails** for particles whose only mother is the first particle of the event: they get no parent, while those with any other mother do. -/
theorem C79_fails_for_first_particle :
    familiesAre (hepFamiliesNew (hepOne { number := 1, tracks := [hepTrack 23 2 0 0 0 0 1, hepTrack 23 2 0 0 0 0 1, hepTrack 13 1 1 0 0 0 1, hepTrack 13 1 2 0 0 0 1] }) 1)
      [[([], []), ([], [3]), ([], []), ([1], [])]] = true := by decide +kernel

/-- **C79 fails** for two mothers in descending order and for a negative second number: the mothers are ignored. -/
theorem C79_fails_for_other_mothers :
    familiesAre (hepFamiliesNew (hepOne { number := 1, tracks := [hepTrack 11 3 0 0 0 0 1, hepTrack 11 3 0 0 0 0 1, hepTrack 22 1 2 1 0 0 1, hepTrack 22 1 2 (-1) 0 0 1] }) 1)
      [[([], []), ([], []), ([], []), ([], [])]] = true := by decide +kernel

/-- **C79 fails** for numbers of mothers that are not those of particles of the event: undefined behaviour, also where further digits hold other information,
which `LCStdHepRdr` ignores. -/
theorem C79_fails_for_wrong_mothers :
    hepIsUb (hepFamiliesNew (hepOne { number := 1, tracks := [hepTrack 22 1 3 0 0 0 1] }) 1) = true ∧
    hepIsUb (hepFamiliesNew (hepOne { number := 1, tracks := [hepTrack 11 3 0 0 0 0 1, hepTrack 22 1 10001 10001 0 0 1] }) 1) = true ∧
    hepTrouble (hepOne { number := 1, tracks := [hepTrack 22 1 3 0 0 0 1] }) 1 = none ∧
    hepTrouble (hepOne { number := 1, tracks := [hepTrack 11 3 0 0 0 0 1, hepTrack 22 1 10001 10001 0 0 1] }) 1 = none := by decide +kernel

end Props
