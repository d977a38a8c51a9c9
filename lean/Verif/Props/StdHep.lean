import Verif.Util.StdHepLemmas5
/-
C68 and C69: reading StdHep files.
-/
namespace Props
open Sio Util Spec Lcio

/-- The results of `n` calls of `lStdHep::readEvent( lse )`. -/
def hepReads (fuel : Nat) : Nat → LStdHep → Except Err (List (Nat × Option (Int × List LTrack)))
  | 0, _ => .ok []
  | n + 1, s =>
    match s.readEventInto fuel with
    | .error e => .error e
    | .ok (r, s) => (hepReads fuel n s).map (r :: ·)

theorem ready_empty {s : LStdHep} {file : List Byte} {t : HepTable} {i : Nat} {ts : List HepTable} {w a c : W64} {p : Int} (h : Ready s file t i ts w a c p) :
    Ready { s with event.isEmpty := true } file t i ts w a c p :=
  ⟨h.x, h.err, h.table, h.le, h.points, h.tables, ⟨h.kept.weight, h.kept.aqed, h.kept.aqcd, h.kept.process⟩⟩

theorem done_empty {s : LStdHep} (h : Done s) : Done { s with event.isEmpty := true } := ⟨h.last, h.next⟩

/-- There is nothing left to read. -/
def Exhausted (fuel : Nat) (s : LStdHep) : Prop := Done s ∨ ∃ file t i ts w a c p, Ready s file t i ts w a c p ∧ (remaining t i ts).length + ts.length < fuel ∧
  eventsOf (remaining t i ts) = []

theorem exhausted_read {fuel : Nat} (hf : 0 < fuel) {s : LStdHep} (h : Exhausted fuel s) : ∃ s', s.readEvent fuel = .ok s' ∧ s'.x.err = lshEndOfFile ∧ Exhausted fuel s' := by
  rcases h with h | ⟨file, t, i, ts, w, a, c, p, h, hl, he⟩
  · obtain ⟨n, rfl⟩ : ∃ n, fuel = n + 1 := ⟨fuel - 1, by omega⟩
    have hd := done_empty h
    refine ⟨{ s with event.isEmpty := true, x.err := lshEndOfFile }, hd.again n, rfl, Or.inl ⟨hd.last, hd.next⟩⟩
  · obtain ⟨s', h1, h2, h3⟩ := (readLoop_spec file (w, a, c, p) fuel _ t i ts (ready_empty h) hl).1 he
    exact ⟨s', h1, h2, Or.inl h3⟩

theorem hepReads_exhausted {fuel : Nat} (hf : 0 < fuel) : ∀ (n : Nat) (s : LStdHep), Exhausted fuel s → hepReads fuel n s = .ok (List.replicate n (lshEndOfFile, none)) := by
  intro n
  induction n with
  | zero => intro s _; rfl
  | succ n ih =>
    intro s h
    obtain ⟨s', h1, h2, h3⟩ := exhausted_read hf h
    rw [hepReads, LStdHep.readEventInto, h1]
    simp only
    rw [if_pos (by rw [h2]; decide), h2]
    simp only
    rw [ih s' h3]; rfl

theorem hepReads_ready {fuel : Nat} (file : List Byte) (extra : Nat) : ∀ (es : List (Int × HepEvent)) (s : LStdHep) (t : HepTable) (i : Nat) (ts : List HepTable)
    (k : W64 × W64 × W64 × Int), Ready s file t i ts k.1 k.2.1 k.2.2.1 k.2.2.2 → (remaining t i ts).length + ts.length < fuel → eventsOf (remaining t i ts) = es →
    hepReads fuel (es.length + extra) s = .ok (es.map (fun e => (0, some (e.2.number, e.2.tracks))) ++ List.replicate extra (lshEndOfFile, none)) := by
  intro es
  induction es with
  | nil =>
    intro s t i ts k h hl he
    rw [List.length_nil, Nat.zero_add, hepReads_exhausted (by omega) extra s (Or.inr ⟨file, t, i, ts, _, _, _, _, h, hl, he⟩)]
    rfl
  | cons e es ih =>
    intro s t i ts k h hl he
    obtain ⟨r, e⟩ := e
    obtain ⟨s', t', i', ts', h1, h2, h3, h4, h5, _⟩ := (readLoop_spec file k fuel _ t i ts (ready_empty h) hl).2 r e es he
    have h1 : s.readEvent fuel = .ok s' := h1
    rw [List.length_cons, Nat.add_right_comm, hepReads, LStdHep.readEventInto, h1]
    simp only
    rw [if_neg (by rw [h2.err]; decide), getEvent_eq s' e h5 h2.err]
    show (hepReads fuel (es.length + extra) s').map _ = _
    rw [ih s' t' i' ts' (nextKept e k) h2 (by omega) h3]
    rfl

/-- Opening a file. -/
theorem hepOpen_ready (f : HepFile) (file : List Byte) (h : f.In file) : ∃ s, hepOpen file = .ok s ∧ s.numevtsExpect = f.header.expected ∧ s.numevts = f.header.events ∧
    Ready s file f.first 0 f.more 0 0 0 0 := by
  obtain ⟨lt, hr, hlt⟩ := reads_header f.header h.version f.first
  obtain ⟨hok, pre, rest, e1, e2⟩ := h.start
  have ha : Ahead { file := file } file (f.header.items ++ f.first.items) :=
    ⟨rfl, rfl, hok, pre, rest, rfl, rfl, e1, e2.symm⟩
  obtain ⟨x', g1, g2⟩ := hr { file := file } file [] (by rw [List.append_nil]; exact ha)
  have g1' : rdFileHeader { file := file } = .ok ((f.header.expected, f.header.events, lt), x') := g1
  refine ⟨{ x := x', numevtsExpect := f.header.expected, numevts := f.header.events, table := lt }, ?_, rfl, rfl,
    g2.opened, g2.err, hlt, Nat.zero_le _, h.points, h.tables, ⟨rfl, rfl, rfl, rfl⟩⟩
  unfold hepOpen LStdHep.create
  rw [g1']
  simp only
  rw [if_neg (by rw [g2.err]; decide)]

theorem remaining_first (f : HepFile) : remaining f.first 0 f.more = f.records := by
  unfold remaining HepFile.records; rw [List.drop_zero, List.flatMap_cons]

/-- **C68**: a StdHep file can be opened; the numbers of events in its header are those reported; the events are read in the order of the event tables, each once,
with all their particles and numbers unchanged; records without an event are skipped; after the last event all calls return the end-of-file code.
What is missing: files that are damaged or have tables that are not in order, see the theorems `C68_fails_…` below. -/
theorem C68_events_in_order_partial (f : HepFile) (file : List Byte) (h : f.In file) (extra fuel : Nat) (hf : f.size < fuel) :
    ∃ s, hepOpen file = .ok s ∧ s.numevtsExpect = f.header.expected ∧ s.numevts = f.header.events ∧
      hepReads fuel (f.events.length + extra) s =
        .ok (f.events.map (fun e => (0, some (e.2.number, e.2.tracks))) ++ List.replicate extra (lshEndOfFile, none)) := by
  obtain ⟨s, h1, h2, h3, h4⟩ := hepOpen_ready f file h
  refine ⟨s, h1, h2, h3, ?_⟩
  have := hepReads_ready file extra f.events s f.first 0 f.more (0, 0, 0, 0) h4 (fuel := fuel) (by rw [remaining_first]; exact hf) (by rw [remaining_first]; rfl)
  exact this

/-! ## Collections -/

/-- The results of `n` calls of `LCStdHepRdr::readEvent`. -/
def hepCollections (ar : HepArith) (fuel : Nat) : Nat → LStdHep → Except Err (List (Option HepCollection))
  | 0, _ => .ok []
  | n + 1, s =>
    match hepReadEvent ar fuel s with
    | .error e => .error e
    | .ok (r, s) => (hepCollections ar fuel n s).map (r :: ·)

/-- The results of calls of `LCStdHepRdr::updateNextEvent` with `n` new events, up to an exception. -/
def hepUpdates (ar : HepArith) (fuel : Nat) : Nat → LStdHep → List (Int × W32 × HepCollection) × Option Err
  | 0, _ => ([], none)
  | n + 1, s =>
    match hepUpdateNext ar fuel s with
    | .error e => ([], some e)
    | .ok (r, s) => let (rs, e) := hepUpdates ar fuel n s; (r :: rs, e)

theorem hepReadEvent_exhausted (ar : HepArith) {fuel : Nat} (hf : 0 < fuel) (s : LStdHep) (h : Exhausted fuel s) :
    ∃ s', hepReadEvent ar fuel s = .ok (none, s') ∧ Exhausted fuel s' := by
  obtain ⟨s', h1, h2, h3⟩ := exhausted_read hf h
  refine ⟨s', ?_, h3⟩
  rw [hepReadEvent, h1]
  simp only
  rw [if_pos (by rw [h2]; decide), if_neg (by rw [h2]; simp)]

theorem hepCollections_exhausted (ar : HepArith) {fuel : Nat} (hf : 0 < fuel) : ∀ (n : Nat) (s : LStdHep), Exhausted fuel s →
    hepCollections ar fuel n s = .ok (List.replicate n none) := by
  intro n
  induction n with
  | zero => intro s _; rfl
  | succ n ih =>
    intro s h
    obtain ⟨s', h1, h3⟩ := hepReadEvent_exhausted ar hf s h
    rw [hepCollections, h1]
    simp only
    rw [ih s' h3]; rfl

/-- Collections made of a list of events. -/
def AllConverted (ar : HepArith) (k : W64 × Int) (es : List HepEvent) (cs : List HepCollection) : Prop :=
  cs.length = es.length ∧ ∀ (i : Nat) e c wp, es[i]? = some e → cs[i]? = some c → (carried k es)[i]? = some wp → Converted ar e wp.1 wp.2 c

theorem AllConverted.cons {ar : HepArith} {k : W64 × W64 × W64 × Int} {e : HepEvent} {es : List HepEvent} {c : HepCollection} {cs : List HepCollection}
    (h : Converted ar e (nextKept e k).1 (nextKept e k).2.2.2 c) (hs : AllConverted ar ((nextKept e k).1, (nextKept e k).2.2.2) es cs) :
    AllConverted ar (k.1, k.2.2.2) (e :: es) (c :: cs) := by
  have hc : carried (k.1, k.2.2.2) (e :: es) = ((nextKept e k).1, (nextKept e k).2.2.2) :: carried ((nextKept e k).1, (nextKept e k).2.2.2) es := by
    unfold nextKept
    rw [carried]
    cases e.ev4 <;> rfl
  refine ⟨by simp [hs.1], ?_⟩
  intro i e' c' wp h1 h2 h3
  rw [hc] at h3
  cases i with
  | zero => cases h1; cases h2; cases h3; exact h
  | succ i => exact hs.2 i e' c' wp h1 h2 h3

theorem hepCollections_ready (ar : HepArith) {fuel : Nat} (file : List Byte) (extra : Nat) : ∀ (es : List (Int × HepEvent)) (s : LStdHep) (t : HepTable) (i : Nat)
    (ts : List HepTable) (k : W64 × W64 × W64 × Int), Ready s file t i ts k.1 k.2.1 k.2.2.1 k.2.2.2 → (remaining t i ts).length + ts.length < fuel →
    eventsOf (remaining t i ts) = es → (∀ e ∈ es, Usable e.2.reduced) →
    ∃ cs, hepCollections ar fuel (es.length + extra) s = .ok (cs.map some ++ List.replicate extra none) ∧
      hepUpdates ar fuel (es.length + (extra + 1)) s = (cs.map (fun c => (c.idrup.getD 0, ar.narrow (ar.widen c.weight), c)), some .endOfData) ∧
      AllConverted ar (k.1, k.2.2.2) (es.map (·.2.reduced)) cs := by
  intro es
  induction es with
  | nil =>
    intro s t i ts k h hl he hu
    have hx : Exhausted fuel s := Or.inr ⟨file, t, i, ts, _, _, _, _, h, hl, he⟩
    refine ⟨[], ?_, ?_, rfl, ?_⟩
    · rw [List.length_nil, Nat.zero_add, hepCollections_exhausted ar (by omega) extra s hx]; rfl
    · obtain ⟨s', h1, _⟩ := hepReadEvent_exhausted ar (show 0 < fuel by omega) s hx
      rw [List.length_nil, Nat.zero_add, hepUpdates, hepUpdateNext, h1]
      rfl
    · intro i e c wp h1; cases h1
  | cons e es ih =>
    intro s t i ts k h hl he hu
    obtain ⟨r, e⟩ := e
    obtain ⟨s', t', i', ts', h1, h2, h3, h4, h5, _⟩ := (readLoop_spec file k fuel _ t i ts (ready_empty h) hl).2 r e es he
    have h1 : s.readEvent fuel = .ok s' := h1
    obtain ⟨c, c1, c2⟩ := hepCollection_digits ar s'.event e h5 (hu (r, e) List.mem_cons_self)
    have hr : hepReadEvent ar fuel s = .ok (some c, s') := by
      rw [hepReadEvent, h1]
      simp only
      rw [if_neg (by rw [h2.err]; decide), c1]
    obtain ⟨cs, d1, d2, d3⟩ := ih s' t' i' ts' (nextKept e k) h2 (by omega) h3 fun e he => hu e (by simp [he])
    refine ⟨c :: cs, ?_, ?_, ?_⟩
    · rw [List.length_cons, Nat.add_right_comm, hepCollections, hr]
      simp only
      rw [d1]; rfl
    · rw [List.length_cons, Nat.add_right_comm, hepUpdates, hepUpdateNext, hr]
      simp only
      rw [d2]; rfl
    · rw [h2.kept.weight, h2.kept.process] at c2
      exact AllConverted.cons (e := e.reduced) c2 d3

/-- **C69**: the collections that `LCStdHepRdr` makes of the events of a file: one particle for each entry, in order, with its attributes; parents and daughters as listed
in the event, by the last four digits of the numbers (with those of the entries 94 completed); `updateNextEvent` adds the same collections and throws `EndOfDataException` behind the last event. The weight
and the process number are those of the latest event that has them. What is missing: events that are not `Usable`
(`C69_fails_…` below), and the weights of events without one (`C69_fails_for_missing_weights`). -/
theorem C69_collections_partial (ar : HepArith) (f : HepFile) (file : List Byte) (h : f.In file) (hu : ∀ e ∈ f.events, Usable e.2.reduced) (extra fuel : Nat) (hf : f.size < fuel) :
    ∃ s cs, hepOpen file = .ok s ∧ hepCollections ar fuel (f.events.length + extra) s = .ok (cs.map some ++ List.replicate extra none) ∧
      hepUpdates ar fuel (f.events.length + (extra + 1)) s = (cs.map (fun c => (c.idrup.getD 0, ar.narrow (ar.widen c.weight), c)), some .endOfData) ∧
      AllConverted ar (0, 0) (f.events.map (·.2.reduced)) cs := by
  obtain ⟨s, h1, _, _, h4⟩ := hepOpen_ready f file h
  obtain ⟨cs, d⟩ := hepCollections_ready ar file extra f.events s f.first 0 f.more (0, 0, 0, 0) h4 (fuel := fuel) (by rw [remaining_first]; exact hf)
    (by rw [remaining_first]; rfl) hu
  exact ⟨s, cs, h1, d⟩

/-- Numbers of at most four digits are taken as they are. -/
theorem reduced_small (e : HepEvent) (h : ∀ t ∈ e.tracks, (-10000 < t.mother1 ∧ t.mother1 < 10000) ∧ (-10000 < t.daughter1 ∧ t.daughter1 < 10000) ∧
    -10000 < t.daughter2 ∧ t.daughter2 < 10000) : e.reduced = e := by
  unfold HepEvent.reduced
  have : e.tracks.map fourDigits = e.tracks := by
    refine (List.map_congr_left fun t ht => ?_).trans (List.map_id _)
    obtain ⟨⟨a1, a2⟩, ⟨b1, b2⟩, c1, c2⟩ := h t ht
    unfold fourDigits
    rw [tmod_within _ a1 a2, tmod_within _ b1 b2, tmod_within _ c1 c2]
    rfl
  rw [this]

/-! ## A file -/

instance (n : Int) : Decidable (IsInt32 n) := inferInstanceAs (Decidable (_ ∧ _))

instance (it : XdrItem) : Decidable it.Ok :=
  match it with
  | .long _ => inferInstanceAs (Decidable (IsInt32 _))
  | .string _ => inferInstanceAs (Decidable (_ < _))
  | .longs _ => inferInstanceAs (Decidable (_ ∧ _))
  | .doubles _ => inferInstanceAs (Decidable (_ < _))
  | .double _ => isTrue trivial
  | .float _ => isTrue trivial

def hepTrack (pid status m1 m2 d1 d2 : Int) (px : W64) : LTrack :=
  { x := 1, y := 2, z := 3, t := 4, px, py := 5, pz := 6, e := 7, m := 8, pid, status, mother1 := m1, mother2 := m2, daughter1 := d1, daughter2 := d2 }

def hepEvent1 : HepEvent :=
  { number := 17, tracks := [hepTrack 11 3 0 0 3 4 10, hepTrack (-11) 3 0 0 4 3 11, hepTrack 2 2 1 2 0 0 12, hepTrack (-2) 2 1 2 0 0 13, hepTrack 94 2 3 4 6 7 14,
      hepTrack 111 1 5 0 0 0 15, hepTrack 211 1 5 0 0 0 16] }

def hepEvent2 : HepEvent :=
  { number := 18, tracks := [hepTrack 22 1 0 0 0 0 20],
    ev4 := some { weight := 30, alphaQed := 31, alphaQcd := 32, scales := [33], spins := [(1, 2, 3)], colors := [(501, 502)], process := 7 } }

def hepRun1 : HepRecord := { version := str "2.00", run := 5, runs := [⟨false, 1, 2, 3, 4, 5, 6, 7⟩] }
def hepRec1 : HepRecord := { version := str "2.00", run := 5, event := some hepEvent1 }
def hepRec2 : HepRecord := { version := str "1.00", run := 5, event := some hepEvent2 }
def hepRun2 : HepRecord := { version := str "2.00", run := 5, runs := [⟨true, 1, 2, 3, 4, 5, 6, 7⟩] }

/-- Two tables, with a begin run record, two events and an end run record. -/
def hepSample : HepFile :=
  { header := { version := str "2.01", title := str "Higgs", events := 2, expected := 3, blocks := [(101, str "StdHep"), (201, str "Ev4")] },
    first := { next := 1028, entries := [(144, hepRun1), (252, hepRec1)] },
    more := [{ next := -2, entries := [(1084, hepRec2), (1356, hepRun2)], spare := [0, 0] }] }

def hepBytes (items : List XdrItem) : List Byte := items.flatMap XdrItem.bytes

def hepSampleBytes : List Byte :=
  hepBytes (hepSample.header.items ++ hepSample.first.items ++ hepRun1.items ++ hepRec1.items ++ hepSample.more.flatMap HepTable.items ++ hepRec2.items ++ hepRun2.items)

theorem storedAt_of (file : List Byte) (pos : Nat) (items : List XdrItem) (h1 : ∀ it ∈ items, it.Ok)
    (h2 : file = file.take pos ++ (hepBytes items ++ file.drop (pos + (hepBytes items).length))) (h3 : (file.take pos).length = pos) : StoredAt file pos items :=
  ⟨h1, file.take pos, _, h2, h3⟩

theorem hepSample_in : hepSample.In hepSampleBytes := by
  refine ⟨by decide, storedAt_of _ _ _ (by decide +kernel) (by decide +kernel) (by decide +kernel), ?_, ?_⟩
  · intro e he
    rcases List.mem_cons.1 he with rfl | he
    · exact storedAt_of _ _ _ (by decide +kernel) (by decide +kernel) (by decide +kernel)
    · rcases List.mem_cons.1 he with rfl | he
      · exact storedAt_of _ _ _ (by decide +kernel) (by decide +kernel) (by decide +kernel)
      · cases he
  · refine HepTables.cons 1028 _ _ (storedAt_of _ _ _ (by decide +kernel) (by decide +kernel) (by decide +kernel)) ?_ HepTables.nil
    intro e he
    rcases List.mem_cons.1 he with rfl | he
    · exact storedAt_of _ _ _ (by decide +kernel) (by decide +kernel) (by decide +kernel)
    · rcases List.mem_cons.1 he with rfl | he
      · exact storedAt_of _ _ _ (by decide +kernel) (by decide +kernel) (by decide +kernel)
      · cases he

example : hepSample.size = 5 ∧ hepSample.events.map (fun e => (e.1, e.2.number, e.2.tracks.length)) = [(5, 17, 7), (5, 18, 1)] := by decide +kernel

theorem hepSample_usable : ∀ e ∈ hepSample.events, Usable e.2.reduced := by
  have : hepSample.events = [(5, hepEvent1), (5, hepEvent2)] := rfl
  rw [this]
  intro e he
  rcases List.mem_cons.1 he with rfl | he
  · refine ⟨?_, by decide +kernel, ?_, fun v hv => by cases hv⟩
    · have : ∀ t ∈ (hepEvent1.reduced).tracks, (match threeCharge t.pid with | .ok _ => true | .error _ => false) = true := by decide +kernel
      intro t ht
      have := this t ht
      split at this
      · exact ⟨_, by assumption⟩
      · cases this
    · intro i t ht h94
      have : ∀ i : Fin 7, (hepEvent1.reduced.tracks[i]?).all (fun t => decide (t.pid = 94 → 0 < t.mother1 ∧ t.mother1 ≤ (i.1 : Int) + 1 ∧ t.mother1 < 10000)) = true := by decide +kernel
      have hi : i < 7 := by
        rcases Nat.lt_or_ge i 7 with h | h
        · exact h
        · rw [List.getElem?_eq_none (by exact h)] at ht; cases ht
      have := this ⟨i, hi⟩
      have ht' : hepEvent1.reduced.tracks[(⟨i, hi⟩ : Fin 7)]? = some t := ht
      rw [ht'] at this
      have this : ¬ t.pid = 94 ∨ 0 < t.mother1 ∧ t.mother1 ≤ (i : Int) + 1 ∧ t.mother1 < 10000 := by simpa using this
      exact this.resolve_left fun h => h h94
  · rcases List.mem_cons.1 he with rfl | he
    · refine ⟨?_, by decide +kernel, ?_, fun v hv => by cases hv; decide⟩
      · intro t ht
        rw [List.mem_singleton.1 ht]
        exact ⟨0, by decide⟩
      · intro i t ht h94
        cases i with
        | zero => cases ht; cases h94
        | succ i => cases ht
    · cases he

/-- The relations of the first event: the two quarks become parents of the entry 94. -/
def hepRelatives (c : HepCollection) : List (List Nat × List Nat) := c.relatives.map fun n => (n.parents, n.daughters)

def hepTestArith : HepArith := { narrow := fun d => BitVec.truncate 32 d, widen := fun f => BitVec.zeroExtend 64 f, overLight := fun d => d }

/-- The relations in the collections made of a file (the first ones, up to the end of the file). -/
def hepFamilies (file : List Byte) (n : Nat) : List (List (List Nat × List Nat)) :=
  match hepOpen file with
  | .error _ => []
  | .ok s => match hepCollections hepTestArith 10 n s with
    | .error _ => []
    | .ok l => l.filterMap fun c => c.map hepRelatives

/-- The process numbers and weights of the collections made of a file. -/
def hepWeights (file : List Byte) (n : Nat) : List (Option (Int × W32)) :=
  match hepOpen file with
  | .error _ => []
  | .ok s => match hepCollections hepTestArith 10 n s with
    | .error _ => []
    | .ok l => l.map fun c => c.map fun c => (c.idrup.getD 0, c.weight)

example : hepFamilies hepSampleBytes 3 = [[([], [2, 3]), ([], [3, 2]), ([0, 1], [4]), ([0, 1], [4]), ([2, 3], [5, 6]), ([4], []), ([4], [])], [([], [])]] := by decide +kernel
example : hepWeights hepSampleBytes 3 = [some (0, 0), some (7, 30), none] := by decide +kernel

/-- What `n` calls of `lStdHep::readEvent( lse )` return after opening a file: codes, and numbers of events and of their particles. -/
def hepCodes (file : List Byte) (n : Nat) : Option (List (Nat × Option (Int × Nat))) :=
  match hepOpen file with
  | .error _ => none
  | .ok s => match hepReads 10 n s with
    | .error _ => none
    | .ok l => some (l.map fun r => (r.1, r.2.map fun e => (e.1, e.2.length)))

/-- The exception or undefined behaviour on opening a file and reading `n` collections. -/
def hepTrouble (file : List Byte) (n : Nat) : Option Err :=
  match hepOpen file with
  | .error e => some e
  | .ok s => match hepCollections hepTestArith 10 n s with
    | .error e => some e
    | .ok _ => none

example : hepCodes hepSampleBytes 4 = some [(0, some (17, 7)), (0, some (18, 1)), (106, none), (106, none)] := by decide +kernel
example : hepTrouble hepSampleBytes 4 = none := by decide +kernel



/-! ## Where it fails -/

/-- A table without events whose next table is itself. -/
theorem readLoop_cycle (file : List Byte) (pos : Nat) (t : HepTable) (ht : t.entries = []) (hn : t.next = pos) (hs : StoredAt file pos t.items) :
    ∀ (fuel : Nat) (s : LStdHep), Opened s.x file → s.x.err = 0 → TableIs s.table t 0 → s.readLoop fuel = .error .diverge := by
  intro fuel
  induction fuel with
  | zero => intro s _ _ _; rfl
  | succ fuel ih =>
    intro s hx he htab
    obtain ⟨lt, hr, hlt⟩ := reads_table s.table t
    obtain ⟨x', e1, e2, e3⟩ := hr.there hx he pos hs
    have h0 : ¬ ((s.table.ievt : Int) < s.table.numEvts) := by rw [htab.ievt, htab.num, ht]; decide
    rw [LStdHep.readLoop, if_neg h0, htab.next, hn, if_neg (by omega), if_neg (by omega)]
    simp only [filePosition_nat s.x hx.opened, ne_eq, not_true, if_false]
    rw [e1]
    simp only [e3, not_true, if_false]
    exact ih _ e2 e3 hlt

/-- A header of 52 bytes. -/
def hepHeader : HepHeader := { version := str "1.00" }

/-- The first table is empty, and its successor is itself. -/
def cyclicTable : HepTable := { next := 52, entries := [] }

/-- **C68 fails** for files with a cycle of empty tables: the file can be opened, but the first call that reads an event never returns. -/
theorem C68_fails_for_cyclic_tables : ∃ s, hepOpen (hepBytes (hepHeader.items ++ cyclicTable.items)) = .ok s ∧ ∀ fuel, hepReads fuel 1 s = .error .diverge := by
  obtain ⟨lt, hr, hlt⟩ := reads_header hepHeader (by decide) cyclicTable
  have hst : StoredAt (hepBytes (hepHeader.items ++ cyclicTable.items)) 0 (hepHeader.items ++ cyclicTable.items) :=
    storedAt_of _ _ _ (by decide +kernel) (by decide +kernel) (by decide +kernel)
  obtain ⟨x', e1, e2, e3⟩ := hr.there (x := { file := hepBytes (hepHeader.items ++ cyclicTable.items) }) ⟨rfl, rfl, rfl⟩ rfl 0 hst
  have e1' : rdFileHeader { file := hepBytes (hepHeader.items ++ cyclicTable.items) } = .ok ((hepHeader.expected, hepHeader.events, lt), x') := e1
  refine ⟨{ x := x', numevtsExpect := hepHeader.expected, numevts := hepHeader.events, table := lt }, ?_, fun fuel => ?_⟩
  · unfold hepOpen LStdHep.create
    rw [e1']
    simp only
    rw [if_neg (by rw [e3]; decide)]
  · have := readLoop_cycle _ 52 cyclicTable rfl rfl (storedAt_of _ _ _ (by decide +kernel) (by decide +kernel) (by decide +kernel)) fuel
      { x := x', numevtsExpect := hepHeader.expected, numevts := hepHeader.events, table := lt, event := { isEmpty := true } } e2 e3 hlt
    have h' : LStdHep.readEvent fuel { x := x', numevtsExpect := hepHeader.expected, numevts := hepHeader.events, table := lt } = .error .diverge := this
    rw [hepReads, LStdHep.readEventInto, h']

/-- A table with raw pointers. -/
def rawTable (pointers : List Int) : List XdrItem :=
  [.long 2, .long 0, .string [], .long (-2), .long pointers.length, .longs [], .longs [], .longs [], .longs [], .longs pointers]

/-- **C68 fails** for a table with the pointer -1 behind that to an event: the event is delivered again and again, and no error is reported. -/
theorem C68_fails_to_notice_bad_pointers :
    hepCodes (hepBytes (hepHeader.items ++ rawTable [100, -1] ++ hepRec1.items)) 5 =
      some [(0, some (17, 7)), (0, some (17, 7)), (0, some (17, 7)), (0, some (17, 7)), (0, some (17, 7))] := by decide +kernel

/-- **C68 fails** to reject records that are no event records: one that starts with 5 instead of 4 is taken for an event, although the reader sets the error
`LSH_NOEVENT`: reading on resets it. -/
theorem C68_fails_to_reject_other_records :
    hepCodes (hepBytes (hepHeader.items ++ rawTable [96] ++ (.long 5 :: hepRec1.items.tail))) 2 = some [(0, some (17, 7)), (106, none)] := by decide +kernel

/-- **C68 fails** for events that are followed by an end run block in the same record: they are dropped. -/
theorem C68_fails_for_runs_after_events :
    hepCodes (hepBytes (hepHeader.items ++ rawTable [96] ++
      ([.long 4, .long 0, .string (str "1.00"), .long 0, .long 0, .long 0, .long 0, .long 2, .long 2, .longs [101, 107], .longs [],
        .long 101, .long 0, .string []] ++ hepEvent1.items ++ [.long 107, .long 0, .string []] ++ (⟨true, 1, 2, 3, 4, 5, 6, 7⟩ : HepRun).items))) 1 =
      some [(106, none)] ∧
    hepCodes (hepBytes (hepHeader.items ++ rawTable [96] ++
      ([.long 4, .long 0, .string (str "1.00"), .long 0, .long 0, .long 0, .long 0, .long 2, .long 2, .longs [107, 101], .longs [],
        .long 107, .long 0, .string []] ++ (⟨true, 1, 2, 3, 4, 5, 6, 7⟩ : HepRun).items ++ [.long 101, .long 0, .string []] ++ hepEvent1.items))) 1 =
      some [(0, some (17, 7))] := by decide +kernel

/-- **C68 fails** for files that are cut off: instead of an exception there is undefined behaviour, when opening a file of which only the first eight bytes are left,
and when reading an event of which only the first eight bytes are left. -/
theorem C68_fails_on_truncated_files : hepTrouble (hepSampleBytes.take 8) 0 = some .ub ∧
    hepTrouble (hepSampleBytes.take 260) 0 = none ∧ hepTrouble (hepSampleBytes.take 260) 1 = some .ub := by decide +kernel

/-- **C69 fails** for events without a weight and a process number: they get those of the event before. -/
theorem C69_fails_for_missing_weights (ar : HepArith) (f : HepFile) (file : List Byte) (h : f.In file) (hu : ∀ e ∈ f.events, Usable e.2.reduced)
    (r1 r2 : Int) (e1 e2 : HepEvent) (v : Ev4) (hev : f.events = [(r1, e1), (r2, e2)]) (h1 : e1.ev4 = some v) (h2 : e2.ev4 = none) :
    ∃ s c1 c2, hepOpen file = .ok s ∧ hepCollections ar (f.size + 1) 2 s = .ok [some c1, some c2] ∧
      c2.weight = ar.narrow v.weight ∧ c2.idrup.getD 0 = v.process := by
  obtain ⟨s, cs, g1, g2, _, g3, g4⟩ := C69_collections_partial ar f file h hu 0 (f.size + 1) (Nat.lt_succ_self _)
  rw [hev] at g2 g3 g4
  match cs, g3 with
  | [c1, c2], _ =>
    refine ⟨s, c1, c2, g1, g2, ?_⟩
    have h1' : e1.reduced.ev4 = some v := h1
    have h2' : e2.reduced.ev4 = none := h2
    have := g4 1 e2.reduced c2 (v.weight, v.process) rfl rfl (by simp [carried, h1', h2'])
    exact ⟨this.weight, this.process⟩

/-- Such a file: the events of the sample in the opposite order. -/
def hepReversed : HepFile :=
  { header := hepHeader, first := { next := -2, entries := [(100, hepRec2), (372, hepRec1)] } }

example : hepReversed.In (hepBytes (hepReversed.header.items ++ hepReversed.first.items ++ hepRec2.items ++ hepRec1.items)) := by
  refine ⟨by decide, storedAt_of _ _ _ (by decide +kernel) (by decide +kernel) (by decide +kernel), ?_, HepTables.nil⟩
  intro e he
  rcases List.mem_cons.1 he with rfl | he
  · exact storedAt_of _ _ _ (by decide +kernel) (by decide +kernel) (by decide +kernel)
  · rcases List.mem_cons.1 he with rfl | he
    · exact storedAt_of _ _ _ (by decide +kernel) (by decide +kernel) (by decide +kernel)
    · cases he

example : hepWeights (hepBytes (hepReversed.header.items ++ hepReversed.first.items ++ hepRec2.items ++ hepRec1.items)) 2 = [some (7, 30), some (7, 30)] := by decide +kernel

/-- An event with more than 9999 particles, the first of which has the last one as its daughter. -/
def crowded (n : Nat) : HepEvent := { number := 1, tracks := hepTrack 22 1 0 0 (n + 1) 0 1 :: List.replicate n (hepTrack 22 1 0 0 0 0 1) }

/-- **C69 fails** for events with more than 9999 particles: whatever arrays hold the event, the last particle is not the daughter of the first. -/
theorem C69_fails_for_many_particles (ar : HepArith) (ev : LEvent) (n : Nat) (hn : 9999 ≤ n) (h : EventIs ev (crowded n)) :
    ∃ c a, hepCollection ar ev = .ok c ∧ c.relatives[0]? = some a ∧ n ∉ a.daughters ∧ ¬ Converted ar (crowded n) ev.eventweight ev.idrup c := by
  obtain ⟨d, hd⟩ : ∃ d : Int, d = ((n : Int) + 1).tmod 10000 := ⟨_, rfl⟩
  have hd0 : 0 ≤ d ∧ d < 10000 := by
    rw [hd, Int.tmod_eq_emod_of_nonneg (by omega)]; omega
  have htr : (crowded n).reduced.tracks = hepTrack 22 1 0 0 d 0 1 :: List.replicate n (hepTrack 22 1 0 0 0 0 1) := by
    show fourDigits _ :: List.map fourDigits (List.replicate n _) = _
    rw [List.map_replicate, hd]; rfl
  have hall : ∀ t ∈ (crowded n).reduced.tracks, t = hepTrack 22 1 0 0 d 0 1 ∨ t = hepTrack 22 1 0 0 0 0 1 := by
    rw [htr]
    intro t ht
    rcases List.mem_cons.1 ht with ht | ht
    · exact Or.inl ht
    · exact Or.inr (List.eq_of_mem_replicate ht)
  have hlen : (crowded n).reduced.tracks.length = n + 1 := by rw [htr, List.length_cons, List.length_replicate]
  have hu : Usable (crowded n).reduced := by
    refine ⟨fun t ht => ?_, fun t ht => ?_, fun i t ht h94 => ?_, fun v hv => by cases hv⟩
    · rcases hall t ht with rfl | rfl <;> exact ⟨0, show threeCharge 22 = .ok 0 by decide⟩
    · rw [hlen]; rcases hall t ht with rfl | rfl <;> simp only [hepTrack] <;> omega
    · rcases hall t (List.mem_of_getElem? ht) with rfl | rfl <;> cases h94
  obtain ⟨c, c1, c2⟩ := hepCollection_digits ar ev _ h hu
  have hrl := c2.relatives.length
  rw [hlen] at hrl
  have hget : c.relatives[0]? = some (c.relatives[0]'(by omega)) := List.getElem?_eq_getElem _
  have hda := c2.relatives.daughters 0 (hepTrack 22 1 0 0 d 0 1) _ (by rw [htr]; rfl) hget (Or.inr (Or.inl (show (1 : Int) ≠ 2 by decide)))
  have hnot : n ∉ listed (hepTrack 22 1 0 0 d 0 1) := by
    unfold listed hepTrack
    simp only [Int.lt_irrefl, and_false, if_false]
    by_cases h0 : 0 < d
    · rw [if_pos h0, List.mem_singleton]; omega
    · rw [if_neg h0]; simp
  refine ⟨c, _, c1, hget, by rw [hda]; exact hnot, fun hc => ?_⟩
  have hda' := hc.relatives.daughters 0 (hepTrack 22 1 0 0 (n + 1) 0 1) _ rfl hget (Or.inr (Or.inl (show (1 : Int) ≠ 2 by decide)))
  refine hnot ?_
  rw [← hda, hda']
  unfold listed hepTrack
  simp only [Int.lt_irrefl, and_false, if_false]
  rw [if_pos (by omega), List.mem_singleton]
  omega

/-- A file with one event. -/
def hepOne (e : HepEvent) : List Byte := hepBytes (hepHeader.items ++ rawTable [96] ++ HepRecord.items { version := str "1.00", event := some e })

/-- **C69 fails** for daughters that are not in the event: there is undefined behaviour if two numbers are given, but not if only one is; and for entries 94 without
a mother, if there is an entry with status 2 and no daughters. -/
theorem C69_fails_for_wrong_numbers :
    hepTrouble (hepOne { number := 1, tracks := [hepTrack 22 1 0 0 1 2 1] }) 1 = some .ub ∧ hepTrouble (hepOne { number := 1, tracks := [hepTrack 22 1 0 0 2 1 1] }) 1 = some .ub ∧
    hepTrouble (hepOne { number := 1, tracks := [hepTrack 22 1 0 0 2 0 1] }) 1 = none ∧
    hepTrouble (hepOne { number := 1, tracks := [hepTrack 94 2 0 0 0 0 1] }) 1 = some .ub ∧ hepTrouble (hepOne { number := 1, tracks := [hepTrack 94 1 0 0 0 0 1] }) 1 = none := by
  decide +kernel

end Props
