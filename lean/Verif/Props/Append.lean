import Verif.Lcio.SummaryLemmas
import Verif.Props.Direct
/-
Properties of files written in several sessions: C27 and C29.
-/
namespace Props
open Sio Spec Lcio

/-! ## C27 -/

/-- Opening for direct access reads the file record. -/
theorem open_summary (cfg : RConfig) (hcodec : Lossless cfg.codec) (ss : List Session) (hs : SessionsOk cfg.codec cfg.std ss) (name : Str) :
    ∃ bytes r cs last a, fileAfter cfg.codec cfg.std ss = .ok (some bytes) ∧ Reader.openFiles cfg true [(name, bytes)] = (.ok (), r) ∧
      r.ra.file = some a ∧ cs.map Chunk.puts = written ss ∧ History cfg.codec cfg.std cs last (some a) := by
  obtain ⟨cs, last, f, bytes, h1, h2, h3⟩ := fileAfter_content cfg.codec hcodec cfg.std ss hs
  obtain ⟨p1, p2⟩ := chunks_puts h1
  cases h3 with
  | some h a ha r hr =>
    subst ha
    have hsz := history_size cfg.codec cfg.std cs last (some a) h (by rw [p1]; exact hs.count)
    obtain ⟨m', e1, e2, e3⟩ := createEventMap_eq cfg.codec h (by omega) r hr {} rfl rfl
    refine ⟨_, { files := [(name, fileOf (recsOf cs) ++ r.wire)], stream := { bytes := fileOf (recsOf cs) ++ r.wire }, readMap := true, ra := m' }, cs, last, a, h2, ?_, e3, h1, h⟩
    unfold Reader.openFiles Reader.openFile
    simp only [if_true]
    rw [e1]

theorem written_puts (cs : List Chunk) (ss : List Session) (h : cs.map Chunk.puts = written ss) (P : Put → Prop) (hp : ∀ p ∈ allPuts ss, P p) :
    ∀ c ∈ cs, ∀ p ∈ c.puts, P p := by
  intro c hc p hpc
  apply hp
  rw [← (chunks_puts h).1]
  exact List.mem_flatMap.2 ⟨c, hc, hpc⟩

theorem least_spec {ps : List Put} {k : RunEvent} (h : Least ps k) : ∃ p ∈ ps, p.key = k ∧ ∀ q ∈ ps, RunEvent.lt q.key k = false := by
  obtain ⟨⟨p, h1, h2⟩, h3⟩ := h
  refine ⟨p, h1, h2, fun q hq => ?_⟩
  have := h3 q hq
  rw [← Bool.not_eq_true, RunEvent.lt_iff]; omega

theorem greatest_spec {ps : List Put} {k : RunEvent} (h : Greatest ps k) : ∃ p ∈ ps, p.key = k ∧ ∀ q ∈ ps, RunEvent.lt k q.key = false := by
  obtain ⟨⟨p, h1, h2⟩, h3⟩ := h
  refine ⟨p, h1, h2, fun q hq => ?_⟩
  have := h3 q hq
  rw [← Bool.not_eq_true, RunEvent.lt_iff]; omega

/-- **C27**, as far as it holds. A file is written in any sessions with event numbers that are not negative. When it is opened for direct access, the file record that was
read is for these:
* its smallest pair of run and event number is that of something written, and no other is smaller in the order of the event map (run headers by run number, then events
  by run and event number);
* its largest pair is likewise right if events are written in each session (that writes something) and no event has a negative run number;
* the numbers of events and runs are right if there is only one session that writes something.

Missing: the numbers after several sessions, see `C27_counts` for what they are and `C27_fails_after_append`, and the largest pair in other cases, see
`C27_fails_for_largest`. -/
theorem C27_summary_partial (cfg : RConfig) (hcodec : Lossless cfg.codec) (ss : List Session) (hs : SessionsOk cfg.codec cfg.std ss) (name : Str)
    (hn : ∀ p ∈ allPuts ss, p.isEvent = true → 0 ≤ p.key.evt.toInt) :
    ∃ bytes r a, fileAfter cfg.codec cfg.std ss = .ok (some bytes) ∧ Reader.openFiles cfg true [(name, bytes)] = (.ok (), r) ∧ r.ra.file = some a ∧
      (∃ p ∈ allPuts ss, p.key = a.minRE ∧ ∀ q ∈ allPuts ss, RunEvent.lt q.key a.minRE = false) ∧
      ((∀ ps ∈ written ss, ∃ p ∈ ps, p.isEvent = true) → (∀ p ∈ allPuts ss, p.isEvent = true → 0 ≤ p.key.run.toInt) →
        ∃ p ∈ allPuts ss, p.key = a.maxRE ∧ ∀ q ∈ allPuts ss, RunEvent.lt a.maxRE q.key = false) ∧
      ((written ss).length = 1 → a.nEvt.toInt = eventsIn (allPuts ss) ∧ a.nRun.toInt = runsIn (allPuts ss)) := by
  obtain ⟨bytes, r, cs, last, a, h1, h2, h3, h4, h5⟩ := open_summary cfg hcodec ss hs name
  have hall := (chunks_puts h4).1
  have hne := history_ne h5
  refine ⟨bytes, r, a, h1, h2, h3, ?_, ?_, ?_⟩
  · have hreg : ∀ c ∈ cs, ∀ p ∈ c.puts, -1 ≤ p.key.evt.toInt := by
      refine written_puts cs ss h4 _ ?_
      intro p hp
      cases p with
      | run hd buf => show -1 ≤ (-1 : BitVec 32).toInt; decide
      | event hd cols buf => have := hn _ hp rfl; omega
    obtain ⟨-, -, h6⟩ := history_min h5 hreg
    obtain ⟨a', e1, e2⟩ := h6 hne
    cases e1
    rw [hall] at e2
    exact least_spec e2
  · intro he hr
    have hnat : ∀ c ∈ cs, ∀ p ∈ c.puts, p.isEvent = true → Natural p.key :=
      written_puts cs ss h4 (fun p => p.isEvent = true → Natural p.key) fun p hp hev => ⟨hr p hp hev, hn p hp hev⟩
    obtain ⟨-, -, h6⟩ := history_max h5 hnat (by
      intro c hc
      exact he c.puts (by rw [← h4]; exact List.mem_map.2 ⟨c, hc, rfl⟩))
    obtain ⟨a', e1, e2, -⟩ := h6 hne
    cases e1
    rw [hall] at e2
    exact greatest_spec e2
  · intro hlen
    rw [← h4, List.length_map] at hlen
    match cs, hlen with
    | [c], _ =>
      obtain ⟨a', e1, e2, e3⟩ := history_total (cs := []) h5 (written_puts _ ss h4 (fun p => p.isEvent = true → 0 ≤ p.key.evt.toInt) hn)
      cases e1
      have hc : c.puts = allPuts ss := by simpa using hall
      have hcount := hs.count
      obtain ⟨l1, l2⟩ := eventsIn_le (allPuts ss)
      rw [hc] at e2 e3
      simp only [List.map_nil, List.sum_nil, Nat.mul_zero, Nat.zero_add] at e2 e3
      rw [e2, e3, BitVec.toInt_eq_toNat_of_lt (by rw [BitVec.toNat_ofNat, Nat.mod_eq_of_lt] <;> omega),
        BitVec.toInt_eq_toNat_of_lt (by rw [BitVec.toNat_ofNat, Nat.mod_eq_of_lt] <;> omega), BitVec.toNat_ofNat, BitVec.toNat_ofNat,
        Nat.mod_eq_of_lt (by omega), Nat.mod_eq_of_lt (by omega)]
      exact ⟨rfl, rfl⟩

/-- **C27**: the numbers that the file record has after any sessions. Those of the last session (that wrote something) are counted once, all others twice. -/
theorem C27_counts (cfg : RConfig) (hcodec : Lossless cfg.codec) (ss : List Session) (hs : SessionsOk cfg.codec cfg.std ss) (name : Str)
    (hn : ∀ p ∈ allPuts ss, p.isEvent = true → 0 ≤ p.key.evt.toInt) :
    ∃ bytes r a before last, fileAfter cfg.codec cfg.std ss = .ok (some bytes) ∧ Reader.openFiles cfg true [(name, bytes)] = (.ok (), r) ∧ r.ra.file = some a ∧
      written ss = before ++ [last] ∧
      a.nEvt.toInt = 2 * (before.map eventsIn).sum + eventsIn last ∧ a.nRun.toInt = 2 * (before.map runsIn).sum + runsIn last := by
  obtain ⟨bytes, r, cs, last, a, h1, h2, h3, h4, h5⟩ := open_summary cfg hcodec ss hs name
  have hall := (chunks_puts h4).1
  rcases List.eq_nil_or_concat cs with rfl | ⟨cs, c, rfl⟩
  · exact absurd rfl (history_ne h5)
  · rw [List.concat_eq_append] at h4 h5 hall
    obtain ⟨a', e1, e2, e3⟩ := history_total h5 (written_puts _ ss h4 (fun p => p.isEvent = true → 0 ≤ p.key.evt.toInt) hn)
    cases e1
    refine ⟨bytes, r, a, cs.map Chunk.puts, c.puts, h1, h2, h3, by rw [← h4]; simp, ?_⟩
    have hcount := hs.count
    rw [← hall] at hcount
    have hsum : ∀ (f : List Put → Nat) (_ : ∀ ps, f ps ≤ ps.length) (cs : List Chunk), (cs.map fun c => f c.puts).sum ≤ (cs.flatMap Chunk.puts).length := by
      intro f hf cs
      induction cs with
      | nil => simp
      | cons c cs ih =>
        have := hf c.puts
        simp only [List.map_cons, List.sum_cons, List.flatMap_cons, List.length_append]
        omega
    have l1 := hsum eventsIn (fun ps => (eventsIn_le ps).1) cs
    have l2 := hsum runsIn (fun ps => (eventsIn_le ps).2) cs
    have l3 := eventsIn_le c.puts
    simp only [List.flatMap_append, List.flatMap_cons, List.flatMap_nil, List.append_nil, List.length_append] at hcount
    have m1 : (cs.map Chunk.puts).map eventsIn = cs.map fun c => eventsIn c.puts := by simp
    have m2 : (cs.map Chunk.puts).map runsIn = cs.map fun c => runsIn c.puts := by simp
    rw [m1, m2]
    rw [e2, e3, BitVec.toInt_eq_toNat_of_lt (by rw [BitVec.toNat_ofNat, Nat.mod_eq_of_lt] <;> omega),
      BitVec.toInt_eq_toNat_of_lt (by rw [BitVec.toNat_ofNat, Nat.mod_eq_of_lt] <;> omega), BitVec.toNat_ofNat, BitVec.toNat_ofNat,
      Nat.mod_eq_of_lt (by omega), Nat.mod_eq_of_lt (by omega)]
    exact ⟨by push_cast; rfl, by push_cast; rfl⟩

theorem distinct_append (a b : List RunEvent) : (distinct (a ++ b)).length ≤ (distinct a).length + (distinct b).length := by
  induction a with
  | nil => simp [distinct]
  | cons x a ih =>
    have e : ∀ (x : RunEvent) l, distinct (x :: l) = if x ∈ l then distinct l else x :: distinct l := fun _ _ => rfl
    rw [List.cons_append, e, e]
    split
    · split
      · exact ih
      · simp only [List.length_cons]; omega
    · next h =>
      rw [if_neg (fun h' => h (List.mem_append_left _ h'))]
      simp only [List.length_cons]; omega

theorem le_sum (l : List Nat) (n : Nat) (h : n ∈ l) : n ≤ l.sum := by
  induction l with
  | nil => cases h
  | cons x l ih =>
    rw [List.sum_cons]
    rcases List.mem_cons.1 h with rfl | h
    · omega
    · have := ih h; omega

theorem eventsIn_flatten (l : List (List Put)) : eventsIn l.flatten ≤ (l.map eventsIn).sum := by
  induction l with
  | nil => simp [eventsIn, distinct]
  | cons x l ih =>
    have := distinct_append ((x.filter Put.isEvent).map Put.key) ((l.flatten.filter Put.isEvent).map Put.key)
    unfold eventsIn at ih ⊢
    simp only [List.flatten_cons, List.filter_append, List.map_append, List.map_cons, List.sum_cons]
    omega

/-- **C27** fails after appending: whenever an event is written in a session and something else is appended in a later one, the file record has more events than there
are. -/
theorem C27_fails_after_append (cfg : RConfig) (hcodec : Lossless cfg.codec) (ss : List Session) (hs : SessionsOk cfg.codec cfg.std ss) (name : Str)
    (hn : ∀ p ∈ allPuts ss, p.isEvent = true → 0 ≤ p.key.evt.toInt) (pre : List (List Put)) (ps qs : List Put) (post : List (List Put))
    (hw : written ss = pre ++ ps :: qs :: post) (he : ∃ p ∈ ps, p.isEvent = true) :
    ∃ bytes r a, fileAfter cfg.codec cfg.std ss = .ok (some bytes) ∧ Reader.openFiles cfg true [(name, bytes)] = (.ok (), r) ∧ r.ra.file = some a ∧
      (eventsIn (allPuts ss) : Int) < a.nEvt.toInt := by
  obtain ⟨bytes, r, a, before, last, h1, h2, h3, h4, h5, -⟩ := C27_counts cfg hcodec ss hs name hn
  refine ⟨bytes, r, a, h1, h2, h3, ?_⟩
  have hall : allPuts ss = (written ss).flatten := by
    have h0 : ∀ l : List (List Put), (l.filter fun l => !l.isEmpty).flatten = l.flatten := by
      intro l
      induction l with
      | nil => rfl
      | cons x l ih => cases x <;> simp [ih]
    unfold written
    rw [h0]
    rfl
  have h6 := eventsIn_flatten (written ss)
  rw [← hall, h4, List.map_append, List.sum_append] at h6
  simp only [List.map_cons, List.map_nil, List.sum_cons, List.sum_nil, Nat.add_zero] at h6
  have h7 : ps ∈ before := by
    rw [h4] at hw
    rcases List.eq_nil_or_concat (qs :: post) with h | ⟨mid, z, h⟩
    · cases h
    · rw [List.concat_eq_append] at h
      rw [h] at hw
      have e : before ++ [last] = (pre ++ ps :: mid) ++ [z] := by rw [hw]; simp
      have := (List.append_inj' e rfl).1
      rw [this]; simp
  have h8 : 1 ≤ eventsIn ps := by
    obtain ⟨p, hp, hp2⟩ := he
    have : p.key ∈ distinct ((ps.filter Put.isEvent).map Put.key) := by
      rw [mem_distinct]
      exact List.mem_map.2 ⟨p, List.mem_filter.2 ⟨hp, hp2⟩, rfl⟩
    exact List.length_pos_of_mem this
  have h9 : eventsIn ps ≤ (before.map eventsIn).sum := le_sum _ _ (List.mem_map.2 ⟨ps, h7, rfl⟩)
  rw [h5]
  omega

/-- What the file record has: number of events, of runs, and the largest pair. -/
def summary (ss : List Session) : Option (Int × Int × Int × Int) :=
  ((Reader.openFiles sampleCfg true [(str "f", fileOfSessions ss)]).2.ra.file).map fun a => (a.nEvt.toInt, a.nRun.toInt, a.maxRE.run.toInt, a.maxRE.evt.toInt)

/-- **C27** fails for the largest pair: if all run numbers are negative it is (0, 0), and a session that only writes headers of runs with larger numbers than those
of the events makes it a run header although events come after these. -/
theorem C27_fails_for_largest :
    summary [⟨false, [.event { run := -5, evt := 3 } [] ([], [])]⟩] = some (1, 0, 0, 0) ∧
    summary [⟨false, [.event { run := 3, evt := 7 } [] ([], [])]⟩, ⟨false, [.run { run := 5 } []]⟩] = some (2, 1, 5, -1) := by
  decide +kernel

/-- C27 applies to sessions. -/
example : ∃ bytes r a, fileAfter sampleCfg.codec sampleCfg.std directSessions = .ok (some bytes) ∧ Reader.openFiles sampleCfg true [(str "f", bytes)] = (.ok (), r) ∧
    r.ra.file = some a ∧ a.minRE = ⟨3, -1⟩ ∧ a.maxRE = ⟨4, 0⟩ := by
  obtain ⟨bytes, r, a, h1, h2, h3, ⟨p, h4, h5, h6⟩, h7, -⟩ := C27_summary_partial sampleCfg idCodec_lossless directSessions directSessions_ok (str "f") directSessions_direct.numbers
  have hk : ∀ p ∈ allPuts directSessions, p.key ∈ (allPuts directSessions).map Put.key := fun p hp => List.mem_map.2 ⟨p, hp, rfl⟩
  have hk2 : (allPuts directSessions).map Put.key = [⟨3, -1⟩, ⟨3, 7⟩, ⟨4, 0⟩, ⟨3, 9⟩] := rfl
  have hmem : ∀ k ∈ [(⟨3, -1⟩ : RunEvent), ⟨3, 7⟩, ⟨4, 0⟩, ⟨3, 9⟩], ∃ q ∈ allPuts directSessions, q.key = k := by
    intro k hk3
    rw [← hk2] at hk3
    exact List.mem_map.1 hk3
  have hin : ∀ p ∈ allPuts directSessions, p.key = ⟨3, -1⟩ ∨ p.key = ⟨3, 7⟩ ∨ p.key = ⟨4, 0⟩ ∨ p.key = ⟨3, 9⟩ := by
    intro p hp
    have := hk p hp
    rw [hk2] at this
    simpa using this
  refine ⟨bytes, r, a, h1, h2, h3, ?_, ?_⟩
  · obtain ⟨q, hq, hq2⟩ := hmem ⟨3, -1⟩ (by simp)
    have h8 := h6 q hq
    rw [hq2, ← h5] at h8
    rcases hin p h4 with e | e | e | e
    · rw [← h5, e]
    all_goals rw [e] at h8; exact absurd h8 (by decide)
  · obtain ⟨p', g1, g2, g3⟩ := h7 (by
      intro ps hps
      have : written directSessions = [[.run (runHeaderOf 3) [], .event sampleEventHeader sampleCols ([7, 7], [])],
        [.event { run := 4, evt := 0 } [] ([], []), .event { run := 3, evt := 9 } tinyCols ([], [])]] := rfl
      rw [this] at hps
      simp only [List.mem_cons, List.not_mem_nil, or_false] at hps
      rcases hps with rfl | rfl
      · exact ⟨_, .tail _ (.head _), rfl⟩
      · exact ⟨_, .head _, rfl⟩) (by
      intro p hp _
      rcases hin p hp with e | e | e | e <;> rw [e] <;> decide)
    obtain ⟨q, hq, hq2⟩ := hmem ⟨4, 0⟩ (by simp)
    have h8 := g3 q hq
    rw [hq2, ← g2] at h8
    rcases hin p' g1 with e | e | e | e
    · rw [e] at h8; exact absurd h8 (by decide)
    · rw [e] at h8; exact absurd h8 (by decide)
    · rw [← g2, e]
    · rw [e] at h8; exact absurd h8 (by decide)

/-- And `C27_fails_after_append`. -/
example : ∃ bytes r a, fileAfter sampleCfg.codec sampleCfg.std directSessions = .ok (some bytes) ∧ Reader.openFiles sampleCfg true [(str "f", bytes)] = (.ok (), r) ∧
    r.ra.file = some a ∧ 3 < a.nEvt.toInt := by
  have := C27_fails_after_append sampleCfg idCodec_lossless directSessions directSessions_ok (str "f") directSessions_direct.numbers [] _ _ [] rfl ⟨_, .tail _ (.head _), rfl⟩
  have e : eventsIn (allPuts directSessions) = 3 := by decide +kernel
  rw [e] at this
  exact this

/-! ## C29 -/

/-- **C29**, as far as it holds. To a file that was written in any sessions, a session of a new writer is appended. All bytes of the file but its last record stay where they
are. Reading the new file with any calls of `readNextEvent` and `readNextRunHeader` gives what was in the file and then what was appended, and everything that was in the file is
still at its place: there is a position from which reading finds it, in the old and in the new file.

Missing: files that were not made by closing a writer, see `C29_fails_without_record` and `C29_fails_for_short_file`. -/
theorem C29_append_partial (cfg : RConfig) (hcodec : Lossless cfg.codec) (ss : List Session) (hs : SessionsOk cfg.codec cfg.std ss) (s : Session)
    (hs' : s.Ok cfg.codec cfg.std) (hcount : (allPuts ss ++ s.puts).length < 2 ^ 27) (hl : Loadable cfg (allPuts ss ++ s.puts)) (name : Str) :
    ∃ bytes w bytes' r r', fileAfter cfg.codec cfg.std ss = .ok (some bytes) ∧ s.run cfg.codec cfg.std {} (some bytes) = .ok (w, some bytes') ∧
      136 ≤ bytes.length ∧ bytes.take (bytes.length - 136) <+: bytes' ∧
      Reader.openFiles cfg false [(name, bytes)] = (.ok (), r) ∧ Reader.openFiles cfg false [(name, bytes')] = (.ok (), r') ∧
      (∀ gs, gets cfg gs r' = .ok (serve cfg gs ((allPuts ss ++ s.puts).map fun p => (name, p)))) ∧
      ∀ pre p post, allPuts ss = pre ++ p :: post → ∃ pos,
        (∀ gs, gets cfg gs (seeked r pos) = .ok (serve cfg gs ((p :: post).map fun p => (name, p)))) ∧
        (∀ gs, gets cfg gs (seeked r' pos) = .ok (serve cfg gs ((p :: post ++ s.puts).map fun p => (name, p)))) := by
  obtain ⟨cs, last, f, bytes, h1, h2, h3⟩ := fileAfter_content cfg.codec hcodec cfg.std ss hs
  have hall := (chunks_puts h1).1
  have hcs : (cs.flatMap Chunk.puts).length < 2 ^ 27 := by rw [hall]; exact hs.count
  -- the appended session adds records with a layout
  have key : ∃ w bytes' R T, s.run cfg.codec cfg.std {} (some bytes) = .ok (w, some bytes') ∧ (∃ old : Rec, old.Ok ∧ old.name ≠ runRecordName ∧ old.name ≠ headerRecordName ∧
      old.name ≠ eventRecordName ∧ old.wire.length = 136 ∧ bytes = fileOf (R ++ [old])) ∧ bytes' = fileOf (R ++ T) ∧
      Layout cfg.codec cfg.std (allPuts ss) R ∧ Layout cfg.codec cfg.std s.puts T ∧ (fileOf R).length < 2 ^ 61 := by
    have hcontent := h3
    cases h3 with
    | some h a ha r hr =>
      subst ha
      have hsz := history_size cfg.codec cfg.std cs last (some a) h hcs
      have ho := access_other hr
      have hold : ∃ old : Rec, old.Ok ∧ old.name ≠ runRecordName ∧ old.name ≠ headerRecordName ∧ old.name ≠ eventRecordName ∧ old.wire.length = 136 ∧
          fileOf (recsOf cs) ++ r.wire = fileOf (recsOf cs ++ [old]) :=
        ⟨r, hr.ok, ho.1, ho.2.1, ho.2.2, access_wire r a hr, by simp [fileOf_append, fileOf_cons, fileOf_nil]⟩
      have hlay : Layout cfg.codec cfg.std (allPuts ss) (recsOf cs) := by
        have := layout_history h (.nil (codec := cfg.codec) (std := cfg.std))
        rw [hall] at this
        simpa using this
      by_cases hp : s.puts = []
      · obtain ⟨w', e1, -⟩ := session_empty cfg.codec cfg.std cs last (some a) _ hcontent (by omega) {} ⟨rfl, rfl, rfl, rfl⟩ s.compress
        obtain ⟨compress, puts⟩ := s
        simp only at hp
        subst hp
        exact ⟨w', _, recsOf cs, [r], e1, hold, by simp [fileOf_append, fileOf_cons, fileOf_nil], hlay, .other r _ _ hr.ok ho.1 ho.2.1 ho.2.2 .nil, hsz⟩
      · obtain ⟨c, last', f', w', bytes', c1, c2, -, c3⟩ := session_step cfg.codec hcodec cfg.std cs last (some a) _ hcontent {} ⟨rfl, rfl, rfl, rfl⟩ s hs' hp
          (by rw [hall]; exact hcount)
        cases c3 with
        | some g a' ha' r' hr' =>
          have ho' := access_other hr'
          refine ⟨w', _, recsOf cs, c.recs ++ [r'], c2, hold, by rw [recsOf_snoc]; simp [fileOf_append, fileOf_cons, fileOf_nil], hlay, ?_, hsz⟩
          generalize hds : cs ++ [c] = ds at g
          cases g with
          | nil => simp at hds
          | snoc cs0 last0 f0 c0 g0 hc0 =>
            obtain ⟨rfl, e2⟩ := List.append_inj' hds rfl
            cases e2
            have o1 := index_other hc0.ix
            have o2 := access_other hc0.acc
            have := layout_groups hc0.puts (.other _ _ _ hc0.ix.ok o1.1 o1.2.1 o1.2.2 (.other _ _ _ hc0.acc.ok o2.1 o2.2.1 o2.2.2
              (.other r' _ _ hr'.ok ho'.1 ho'.2.1 ho'.2.2 (.nil (codec := cfg.codec) (std := cfg.std)))))
            rw [c1] at this
            simpa [Chunk.recs] using this
  obtain ⟨w, bytes', R, T, k1, ⟨old, o1, o2, o3, o4, o5, rfl⟩, rfl, k4, k5, k6⟩ := key
  have hin : ∀ B : List Byte, ({ bytes := B } : IStream) = ready B 0 := fun _ => rfl
  -- reading from a position
  have hget : ∀ (A B : List Rec) (ps : List Put), Layout cfg.codec cfg.std ps B → (∀ p ∈ ps, p ∈ allPuts ss ++ s.puts) → (fileOf A).length < 2 ^ 61 → ∀ gs,
      gets cfg gs (seeked { files := [(name, fileOf (A ++ B))], stream := { bytes := fileOf (A ++ B) }, readMap := false } (BitVec.ofNat 64 (fileOf A).length)) =
        .ok (serve cfg gs (ps.map fun p => (name, p))) := by
    intro A B ps hB hps hA gs
    have hat : At cfg (seeked { files := [(name, fileOf (A ++ B))], stream := { bytes := fileOf (A ++ B) }, readMap := false } (BitVec.ofNat 64 (fileOf A).length)) name ps [] := by
      refine ⟨⟨fileOf A, B, ?_, hB⟩, rfl, Lcio.All2.nil _⟩
      unfold seeked
      simp only
      rw [hin, seekg_ready, BitVec.toNat_ofNat, Nat.mod_eq_of_lt (by omega), fileOf_append]
    rw [gets_serve cfg gs _ _ _ _ hat (by
      intro x hx
      simp only [following, items, List.flatMap_cons, List.flatMap_nil, List.append_nil, List.mem_map] at hx
      obtain ⟨q, hq, rfl⟩ := hx
      exact hl q (hps q hq) _)]
    simp [following, items]
  refine ⟨_, w, _, { files := [(name, fileOf (R ++ [old]))], stream := { bytes := fileOf (R ++ [old]) }, readMap := false },
    { files := [(name, fileOf (R ++ T))], stream := { bytes := fileOf (R ++ T) }, readMap := false }, h2, k1, ?_, ?_, rfl, rfl, ?_, ?_⟩
  · simp [fileOf_append, fileOf_cons, fileOf_nil]; omega
  · have e1 : fileOf (R ++ [old]) = fileOf R ++ old.wire := by simp [fileOf_append, fileOf_cons, fileOf_nil]
    have e2 : (fileOf R ++ old.wire).length - 136 = (fileOf R).length := by rw [List.length_append]; omega
    rw [e1, e2, List.take_left, fileOf_append]
    exact List.prefix_append _ _
  · intro gs
    exact hget [] (R ++ T) _ (k4.append k5) (fun p hp => hp) (by simp [fileOf_nil]) gs
  · intro pre p post e
    obtain ⟨ra, rb, rfl, h4⟩ := k4.split pre p post e
    have hra : (fileOf ra).length < 2 ^ 61 := by rw [fileOf_append, List.length_append] at k6; omega
    refine ⟨BitVec.ofNat 64 (fileOf ra).length, ?_, ?_⟩
    · intro gs
      have := hget ra (rb ++ [old]) (p :: post) (by simpa using h4.append (.other old [] [] o1 o2 o3 o4 (.nil (codec := cfg.codec) (std := cfg.std))))
        (fun q hq => List.mem_append_left _ (by rw [e]; exact List.mem_append_right _ hq)) hra gs
      simpa using this
    · intro gs
      have := hget ra (rb ++ T) (p :: post ++ s.puts) (h4.append k5)
        (fun q hq => by
          rcases List.mem_append.1 hq with hq | hq
          · exact List.mem_append_left _ (by rw [e]; exact List.mem_append_right _ hq)
          · exact List.mem_append_right _ hq) hra gs
      simpa using this

/-- C29 applies to the sample sessions and one more. -/
example : ∃ bytes w bytes', fileAfter sampleCfg.codec sampleCfg.std directSessions = .ok (some bytes) ∧
    Session.run sampleCfg.codec sampleCfg.std {} (some bytes) ⟨true, [.event { run := 4, evt := 0 } [] ([], []), .event { run := 3, evt := 9 } tinyCols ([], [])]⟩ =
      .ok (w, some bytes') ∧ bytes.take (bytes.length - 136) <+: bytes' := by
  have hs := directSessions_ok
  obtain ⟨bytes, w, bytes', r, r', h1, h2, -, h3, -⟩ := C29_append_partial sampleCfg idCodec_lossless directSessions hs
    ⟨true, [.event { run := 4, evt := 0 } [] ([], []), .event { run := 3, evt := 9 } tinyCols ([], [])]⟩ (hs.each _ (.tail _ (.tail _ (.head _)))) (by decide +kernel)
    (by
      have hl := storable_loadable sampleCfg _ directSessions_storable
      intro p hp
      apply hl
      rcases List.mem_append.1 hp with hp | hp
      · exact hp
      · exact List.mem_flatMap.2 ⟨_, .tail _ (.tail _ (.head _)), hp⟩) (str "f")
  exact ⟨bytes, w, bytes', h1, h2, h3⟩

/-- What is in a file when the writer is not closed, for example because the program crashes. -/
def unclosed (ps : List Put) : List Byte :=
  match ({} : Writer).openNew with
  | .error _ => []
  | .ok w => match putAll idCodec ieee false w ps with
    | .error _ => []
    | .ok w => (w.stream.map (·.bytes)).getD []

/-- What is read from a file. -/
def numbersIn (gs : List Get) (bytes : List Byte) : Except Err (List (Option (Int × Option Int))) :=
  numbers (gets sampleCfg gs (Reader.openFiles sampleCfg false [(str "f", bytes)]).2)

/-- The content of a file after a session that appends one event. -/
def appendOne (bytes : List Byte) : Except Err (List Byte) :=
  match Session.run idCodec ieee {} (some bytes) ⟨false, [.event { run := 1, evt := 9 } [] ([], [])]⟩ with
  | .error e => .error e
  | .ok (_, b) => .ok (b.getD [])

/-- **C29** fails for files without random access record at the end, whatever is in them: opening for append empties the file. -/
theorem C29_fails_without_record (codec : Codec) (w w' : Writer) (bytes : List Byte) (h : (w.ra.initAppend codec { bytes := bytes }).1 = .ok false)
    (h' : w.openAppend codec (some bytes) = .ok w') : w'.stream = some { bytes := [] } := by
  unfold Writer.openAppend at h'
  simp only at h'
  generalize w.ra.initAppend codec { bytes := bytes } = x at h h'
  obtain ⟨x1, x2, x3⟩ := x
  simp only at h
  subst h
  cases hw : w.stream with
  | some s => rw [hw] at h'; cases h'
  | none =>
    rw [hw] at h'
    simp only [Bool.false_eq_true, if_false, Except.ok.injEq] at h'
    rw [← h']

/-- An example: the file of a writer that was not closed, with the header of run 1 and two events. It can be read. After an event was appended, only this one is left. -/
theorem C29_fails_for_unclosed_file :
    let old := unclosed [.run { run := 1 } [], .event { run := 1, evt := 0 } [] ([], []), .event { run := 1, evt := 1 } [] ([], [])]
    numbersIn [.run, .event, .event, .event] old = .ok [some (1, none), some (1, some 0), some (1, some 1), none] ∧
    (appendOne old).toOption.map (numbersIn [.event, .event]) = some (.ok [some (1, some 9), none]) ∧
    (appendOne old).toOption.map (numbersIn [.run]) = some (.ok [none]) := by
  decide +kernel

/-- **C29** fails for a file that was closed without writing anything: it is empty, and cannot be opened for append. -/
theorem C29_fails_for_short_file : fileAfter idCodec ieee [⟨false, []⟩] = .ok (some []) ∧ appendOne [] = .error .ioException := by
  decide +kernel

end Props
