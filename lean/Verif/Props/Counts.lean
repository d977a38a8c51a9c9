import Verif.Lcio.CountsLemmas
import Verif.Util.EventCounter
import Verif.Props.Direct
import Verif.Props.Append
/-
C85: the numbers of events and runs that readers report.
-/
namespace Props
open Sio Spec Lcio Util

/-- The runs that have a header and the events in a list, in order. -/
structure Listed (ps : List Put) (runs : List W32) (evts : List (W32 × W32)) : Prop where
  runs_sorted : runs.Pairwise (fun a b => a.toInt < b.toInt)
  runs_mem : ∀ n, n ∈ runs ↔ ∃ p ∈ ps, p.isEvent = false ∧ p.key.run = n
  evts_sorted : evts.Pairwise (fun a b => a.1.toInt < b.1.toInt ∨ (a.1.toInt = b.1.toInt ∧ a.2.toInt < b.2.toInt))
  evts_mem : ∀ n e, (n, e) ∈ evts ↔ ∃ p ∈ ps, p.isEvent = true ∧ p.key = ⟨n, e⟩

/-- The event map of a file says how many different events and run headers there are, by their numbers, and which ones. -/
structure Reports (ps : List Put) (m : RunEventMap) : Prop where
  events : m.nEvt = eventsIn ps
  runs : m.nRun = runsIn ps
  lists : ∃ runs evts, m.getRuns = .ok runs ∧ m.getEvents = .ok evts ∧ Listed ps runs evts

/-- The event map of a file. -/
theorem map_reports (cfg : RConfig) (hcodec : Lossless cfg.codec) (ss : List Session) (hs : SessionsOk cfg.codec cfg.std ss) (hd : DirectOk ss)
    (hl : Loadable cfg (allPuts ss)) :
    ∃ bytes, fileAfter cfg.codec cfg.std ss = .ok (some bytes) ∧ (bytes.length < 2 ^ 31 → ∃ ra b,
      ({} : RaMgr).createEventMap cfg.codec { bytes := bytes } = (.ok b, { bytes := bytes }, ra) ∧ Reports (allPuts ss) ra.map) := by
  obtain ⟨bytes, h1, h2⟩ := C28_event_map_partial cfg hcodec ss hs hd hl []
  obtain ⟨bytes', g1, g2⟩ := open_direct cfg hcodec ss hs hd []
  rw [h1] at g1
  cases g1
  refine ⟨bytes, h1, fun hlen => ?_⟩
  obtain ⟨r, e1, -, -, runs, evts, l1, l2, l3, l4, l5, l6, l7, l8⟩ := h2 hlen
  obtain ⟨ra, L, f1, -⟩ := g2 hlen
  rw [f1] at e1
  simp only [Prod.mk.injEq, true_and] at e1
  subst e1
  simp only at l1 l2 l7 l8
  unfold Reader.openFiles Reader.openFile at f1
  simp only [if_true] at f1
  split at f1
  · cases f1
  · rename_i b s ra' he
    simp only [Prod.mk.injEq, true_and, Reader.mk.injEq, and_true] at f1
    obtain ⟨rfl, rfl⟩ := f1
    refine ⟨_, b, he, ?_, ?_, runs, evts, l1, l2, ⟨l3, l4, l5, l6⟩⟩
    · rw [l8]
      unfold eventsIn
      rw [← List.length_map (f := fun x : W32 × W32 => (⟨x.1, x.2⟩ : RunEvent))]
      apply length_of_members
      · rw [List.Nodup, List.pairwise_map]
        refine l5.imp fun {a b} h e => ?_
        simp only [RunEvent.mk.injEq] at e
        rw [e.1, e.2] at h
        omega
      · exact nodup_distinct _
      · intro k
        rw [mem_distinct]
        simp only [List.mem_map, List.mem_filter]
        constructor
        · rintro ⟨⟨n, e⟩, hx, rfl⟩
          obtain ⟨p, hp, hp1, hp2⟩ := (l6 n e).1 hx
          exact ⟨p, ⟨hp, hp1⟩, hp2⟩
        · rintro ⟨p, ⟨hp, hp1⟩, rfl⟩
          exact ⟨(p.key.run, p.key.evt), (l6 _ _).2 ⟨p, hp, hp1, rfl⟩, rfl⟩
    · rw [l7]
      unfold runsIn
      rw [← List.length_map (f := fun x : W32 => (⟨x, -1⟩ : RunEvent))]
      have hk : ∀ p : Put, p.isEvent = false → p.key = ⟨p.key.run, -1⟩ := by
        intro p hp
        cases p with
        | run h buf => rfl
        | event h cols buf => simp [Put.isEvent] at hp
      apply length_of_members
      · rw [List.Nodup, List.pairwise_map]
        refine l3.imp fun {a b} h e => ?_
        simp only [RunEvent.mk.injEq, and_true] at e
        rw [e] at h
        omega
      · exact nodup_distinct _
      · intro k
        rw [mem_distinct]
        simp only [List.mem_map, List.mem_filter, Bool.not_eq_true']
        constructor
        · rintro ⟨n, hx, rfl⟩
          obtain ⟨p, hp, hp1, hp2⟩ := (l4 n).1 hx
          exact ⟨p, ⟨hp, hp1⟩, by rw [hk p hp1, hp2]⟩
        · rintro ⟨p, ⟨hp, hp1⟩, rfl⟩
          exact ⟨p.key.run, (l4 _).2 ⟨p, hp, hp1, rfl⟩, (hk p hp1).symm⟩

/-- What the four calls return once the event map is there, and which reader they leave. -/
theorem calls_of_map (cfg : RConfig) (r r' : Reader) (h : r.needMap cfg = (.ok (), r')) (h' : r'.readMap = true) :
    r.getNumberOfEvents cfg = (.ok r'.ra.map.nEvt, r') ∧ r.getNumberOfRuns cfg = (.ok r'.ra.map.nRun, r') ∧
    r.getRuns cfg = (r'.ra.map.getRuns, r') ∧ r.getEvents cfg = (r'.ra.map.getEvents, r') := by
  have h2 : r'.needMap cfg = (.ok (), r') := by unfold Reader.needMap; rw [if_pos h']
  have e1 : r.getNumberOfRuns cfg = (.ok r'.ra.map.nRun, r') := by unfold Reader.getNumberOfRuns; rw [h]
  have e2 : r'.getNumberOfEvents cfg = (.ok r'.ra.map.nEvt, r') := by unfold Reader.getNumberOfEvents; rw [h2]
  refine ⟨by unfold Reader.getNumberOfEvents; rw [h], e1, by unfold Reader.getRuns; rw [e1], ?_⟩
  unfold Reader.getEvents
  rw [e1]
  simp only
  rw [e2]

/-- A new reader, direct or not, of a file and perhaps others. -/
theorem open_either (cfg : RConfig) (direct : Bool) (name : Str) (bytes : List Byte) (ra : RaMgr) (b : Bool)
    (h : ({} : RaMgr).createEventMap cfg.codec { bytes := bytes } = (.ok b, { bytes := bytes }, ra)) (rest : List (Str × List Byte)) :
    Reader.openFiles cfg direct ((name, bytes) :: rest) =
      (.ok (), { files := (name, bytes) :: rest, stream := { bytes := bytes }, readMap := direct, ra := if direct then ra else {} }) := by
  cases direct with
  | false => rfl
  | true =>
    unfold Reader.openFiles Reader.openFile
    simp only [if_true]
    rw [h]

/-- Everything about the calls on one file. -/
theorem counts_main (cfg : RConfig) (hcodec : Lossless cfg.codec) (ss : List Session) (hs : SessionsOk cfg.codec cfg.std ss) (hd : DirectOk ss)
    (hl : Loadable cfg (allPuts ss)) (name : Str) :
    ∃ bytes, fileAfter cfg.codec cfg.std ss = .ok (some bytes) ∧ (bytes.length < 2 ^ 31 → ∀ direct, ∃ r, Reader.openFiles cfg direct [(name, bytes)] = (.ok (), r) ∧
      ∀ before, none ∉ serve cfg before ((allPuts ss).map fun p => (name, p)) → ∃ r',
        (afterGets cfg before r).getNumberOfEvents cfg = (.ok (eventsIn (allPuts ss)), r') ∧
        (afterGets cfg before r).getNumberOfRuns cfg = (.ok (runsIn (allPuts ss)), r') ∧
        (∃ runs evts, (afterGets cfg before r).getRuns cfg = (.ok runs, r') ∧ (afterGets cfg before r).getEvents cfg = (.ok evts, r') ∧ Listed (allPuts ss) runs evts) ∧
        ∀ gs, gets cfg gs r' = .ok (serve cfg gs (if direct then remaining before ((allPuts ss).map fun p => (name, p)) else (allPuts ss).map fun p => (name, p)))) := by
  obtain ⟨bytes, h1, h2⟩ := map_reports cfg hcodec ss hs hd hl
  refine ⟨bytes, h1, fun hlen direct => ?_⟩
  obtain ⟨ra, b, h3, h4⟩ := h2 hlen
  refine ⟨_, open_either cfg direct name bytes ra b h3 [], fun before hb => ?_⟩
  -- the reader stands before everything
  obtain ⟨r0, c, cs, a1, a2, a3, a4, a5⟩ := open_at cfg hcodec [(name, bytes)] [(name, ss)] (Lcio.All2.cons ⟨rfl, h1, .inl hs⟩ (Lcio.All2.nil _)) (by simp) (by
    intro c hc
    rw [List.mem_singleton.1 hc]
    exact hl)
  simp only [List.cons.injEq] at a2
  obtain ⟨rfl, rfl⟩ := a2
  have e0 : r0 = { files := [(name, bytes)], stream := { bytes := bytes }, readMap := false } := by
    have := open_either cfg false name bytes ra b h3 []
    rw [a1] at this
    simpa using this
  subst e0
  simp only [List.map_nil] at a3 a4
  have hits : contentsOf [(name, ss)] = (allPuts ss).map fun p => (name, p) := by simp [contentsOf, items]
  rw [hits] at a4 a5
  have hat : ∀ (dm : Bool) (ra' : RaMgr), At cfg { files := [(name, bytes)], stream := { bytes := bytes }, readMap := dm, ra := ra' } name (allPuts ss) [] :=
    fun dm ra' => ⟨a3.stream, a3.file, a3.files⟩
  obtain ⟨name', ps', rest', b1, b2, b3, b4⟩ := gets_at cfg before _ _ _ _ (hat direct (if direct then ra else {})) (by rw [a4]; exact a5) (by rw [a4]; exact hb)
  rw [a4] at b2 b4
  have hsame := gets_same cfg before { files := [(name, bytes)], stream := { bytes := bytes }, readMap := direct, ra := if direct then ra else {} } rfl
  obtain ⟨s1, s2, s3, s4, s5⟩ := hsame
  simp only at s1 s2 s3 s4 s5
  obtain ⟨runs, evts, l1, l2, l3⟩ := h4.lists
  cases direct with
  | true =>
    simp only [if_true] at s1 s2 s3 s4 s5 b1 ⊢
    have hn : (afterGets cfg before { files := [(name, bytes)], stream := { bytes := bytes }, readMap := true, ra := ra }).needMap cfg =
        (.ok (), afterGets cfg before { files := [(name, bytes)], stream := { bytes := bytes }, readMap := true, ra := ra }) := by
      unfold Reader.needMap; rw [if_pos s3]
    obtain ⟨c1, c2, c3, c4⟩ := calls_of_map cfg _ _ hn s3
    rw [s4] at c1 c2 c3 c4
    refine ⟨_, by rw [c1, h4.events], by rw [c2, h4.runs], ⟨runs, evts, by rw [c3, l1], by rw [c4, l2], l3⟩, fun gs => ?_⟩
    rw [← b2]
    exact gets_serve cfg gs _ _ _ _ b1 fun x hx => a5 x (b4 x hx)
  | false =>
    simp only [Bool.false_eq_true, if_false] at s1 s2 s3 s4 s5 b1 ⊢
    obtain ⟨⟨pre, rs, d1, -⟩, -, -⟩ := b1
    have hst : (afterGets cfg before { files := [(name, bytes)], stream := { bytes := bytes } }).stream = ready bytes pre.length := by
      rw [d1] at s5 ⊢
      rw [show pre ++ fileOf rs = bytes from s5]
    have hn : (afterGets cfg before { files := [(name, bytes)], stream := { bytes := bytes } }).needMap cfg =
        (.ok (), { (afterGets cfg before { files := [(name, bytes)], stream := { bytes := bytes } }) with readMap := true, stream := { bytes := bytes }, ra := ra }) := by
      unfold Reader.needMap
      rw [if_neg (by rw [s3]; simp), hst, s4, createEventMap_pos]
      rw [show ready bytes 0 = { bytes := bytes } from rfl, h3]
    obtain ⟨c1, c2, c3, c4⟩ := calls_of_map cfg _ _ hn rfl
    simp only at c1 c2 c3 c4
    refine ⟨_, by rw [c1, h4.events], by rw [c2, h4.runs], ⟨runs, evts, by rw [c3, l1], by rw [c4, l2], l3⟩, fun gs => ?_⟩
    have hat' : At cfg { (afterGets cfg before { files := [(name, bytes)], stream := { bytes := bytes } }) with readMap := true, stream := { bytes := bytes }, ra := ra } name (allPuts ss) [] := by
      refine ⟨a3.stream, ?_, ?_⟩
      · have := a3.file
        unfold Reader.fileName at this ⊢
        simp only [s1, s2]
        exact this
      · have := a3.files
        simp only [s1, s2]
        exact this
    rw [← a4]
    exact gets_serve cfg gs _ _ _ _ hat' (by rw [a4]; exact a5)

/-- **C85**, as far as it holds. A file is written in any sessions, where event numbers are not negative and the index of each session is lossless in the sense of C25, and it is smaller
than 2 GiB. A reader opens it, for direct access or not, and any calls of `readNextEvent` and `readNextRunHeader` are made, none of which returns null. Then
* `getNumberOfEvents` and `getNumberOfRuns` return how many different events and run headers, by their numbers, are in the file
* `getRuns` and `getEvents` list them in order
* with direct access, reading goes on where it was.

Missing: readers without direct access start again from the beginning (`C85_fails_position_lost`); after null has been returned the calls fail (`C85_fails_at_end`); events with the same numbers are counted
once (`C85_fails_same_numbers`); of several files only the current one is looked at (`C85_fails_more_files`). -/
theorem C85_numbers_partial (cfg : RConfig) (hcodec : Lossless cfg.codec) (ss : List Session) (hs : SessionsOk cfg.codec cfg.std ss) (hd : DirectOk ss)
    (hl : Loadable cfg (allPuts ss)) (name : Str) :
    ∃ bytes, fileAfter cfg.codec cfg.std ss = .ok (some bytes) ∧ (bytes.length < 2 ^ 31 → ∀ direct, ∃ r, Reader.openFiles cfg direct [(name, bytes)] = (.ok (), r) ∧
      ∀ before, none ∉ serve cfg before ((allPuts ss).map fun p => (name, p)) → ∃ r',
        (afterGets cfg before r).getNumberOfEvents cfg = (.ok (eventsIn (allPuts ss)), r') ∧
        (afterGets cfg before r).getNumberOfRuns cfg = (.ok (runsIn (allPuts ss)), r') ∧
        (∃ runs evts, (afterGets cfg before r).getRuns cfg = (.ok runs, r') ∧ (afterGets cfg before r).getEvents cfg = (.ok evts, r') ∧ Listed (allPuts ss) runs evts) ∧
        (direct = true → ∀ gs, gets cfg gs r' = .ok (serve cfg gs (remaining before ((allPuts ss).map fun p => (name, p)))))) := by
  obtain ⟨bytes, h1, h2⟩ := counts_main cfg hcodec ss hs hd hl name
  refine ⟨bytes, h1, fun hlen direct => ?_⟩
  obtain ⟨r, e1, e2⟩ := h2 hlen direct
  refine ⟨r, e1, fun before hb => ?_⟩
  obtain ⟨r', f1, f2, f3, f4⟩ := e2 before hb
  refine ⟨r', f1, f2, f3, fun hdir gs => ?_⟩
  subst hdir
  exact f4 gs

/-- **C85** fails without direct access: after `getNumberOfEvents` reading starts again from the beginning, whatever had been read before. -/
theorem C85_fails_position_lost (cfg : RConfig) (hcodec : Lossless cfg.codec) (ss : List Session) (hs : SessionsOk cfg.codec cfg.std ss) (hd : DirectOk ss)
    (hl : Loadable cfg (allPuts ss)) (name : Str) :
    ∃ bytes, fileAfter cfg.codec cfg.std ss = .ok (some bytes) ∧ (bytes.length < 2 ^ 31 → ∃ r, Reader.openFiles cfg false [(name, bytes)] = (.ok (), r) ∧
      ∀ before, none ∉ serve cfg before ((allPuts ss).map fun p => (name, p)) → ∀ gs,
        gets cfg gs ((afterGets cfg before r).getNumberOfEvents cfg).2 = .ok (serve cfg gs ((allPuts ss).map fun p => (name, p)))) := by
  obtain ⟨bytes, h1, h2⟩ := counts_main cfg hcodec ss hs hd hl name
  refine ⟨bytes, h1, fun hlen => ?_⟩
  obtain ⟨r, e1, e2⟩ := h2 hlen false
  refine ⟨r, e1, fun before hb gs => ?_⟩
  obtain ⟨r', f1, -, -, f4⟩ := e2 before hb
  rw [f1]
  exact f4 gs

/-- **C85** fails after null has been returned by a reader without direct access: `getNumberOfEvents` throws, and when it is called again it returns 0. -/
theorem C85_fails_at_end (cfg : RConfig) (hcodec : Lossless cfg.codec) (ss : List Session) (hs : SessionsOk cfg.codec cfg.std ss) (hl : Loadable cfg (allPuts ss)) (name : Str) :
    ∃ bytes r, fileAfter cfg.codec cfg.std ss = .ok (some bytes) ∧ Reader.openFiles cfg false [(name, bytes)] = (.ok (), r) ∧
      ∀ before, none ∈ serve cfg before ((allPuts ss).map fun p => (name, p)) → ∃ r',
        (afterGets cfg before r).getNumberOfEvents cfg = (.error .ioException, r') ∧ r'.getNumberOfEvents cfg = (.ok 0, r') := by
  obtain ⟨cs, last, f, bytes, -, h1, -⟩ := fileAfter_content cfg.codec hcodec cfg.std ss hs
  obtain ⟨r0, c, cs, a1, a2, a3, a4, a5⟩ := open_at cfg hcodec [(name, bytes)] [(name, ss)] (Lcio.All2.cons ⟨rfl, h1, .inl hs⟩ (Lcio.All2.nil _)) (by simp) (by
    intro c hc
    rw [List.mem_singleton.1 hc]
    exact hl)
  simp only [List.cons.injEq] at a2
  obtain ⟨rfl, rfl⟩ := a2
  have hits : contentsOf [(name, ss)] = (allPuts ss).map fun p => (name, p) := by simp [contentsOf, items]
  rw [hits] at a4 a5
  refine ⟨bytes, r0, h1, a1, fun before hb => ?_⟩
  have e0 : r0 = { files := [(name, bytes)], stream := { bytes := bytes }, readMap := false } := by
    cases a1; rfl
  have hsame := gets_same cfg before r0 (by rw [e0]; rfl)
  have hfail : (afterGets cfg before r0).stream.fail = true := by
    have key : ∀ (gs : List Get) (r : Reader) (nm : Str) (ps : List Put) (rest : List (Str × List Put)), At cfg r nm ps rest →
        (∀ x ∈ following nm ps rest, delivery cfg x.1 x.2 ≠ none) → none ∈ serve cfg gs (following nm ps rest) → (afterGets cfg gs r).stream.fail = true := by
      intro gs
      induction gs with
      | nil => intro r nm ps rest _ _ hn; simp [serve] at hn
      | cons g gs ih =>
        intro r nm ps rest h hl hn
        unfold afterGets
        unfold serve at hn
        cases hd : (following nm ps rest).dropWhile (fun x => !g.wants x.2) with
        | nil =>
          obtain ⟨r', h1, B, p, h2⟩ := call_none cfg g r nm ps rest h hd
          simp only [h1]
          rw [h2]
        | cons x its =>
          rw [hd] at hn
          obtain ⟨hw, pre, hp⟩ := dropWhile_head _ _ _ _ hd
          cases hv : delivery cfg x.1 x.2 with
          | none => exact absurd hv (hl x (by rw [hp]; simp))
          | some d =>
            obtain ⟨r', ps', rest', h1, h2, h3, -⟩ := call_some cfg g r nm ps rest h x its d hd hv
            simp only [h1]
            refine ih r' x.1 ps' rest' h2 (fun y hy => hl y (by rw [hp, h3]; simp [hy])) ?_
            simp only [hv] at hn
            simpa [h3] using hn
    exact key before r0 _ _ _ a3 (by rw [a4]; exact a5) (by rw [a4]; exact hb)
  have hrm : (afterGets cfg before r0).readMap = false := by rw [hsame.readMap, e0]
  have hra : (afterGets cfg before r0).ra = {} := by rw [hsame.ra, e0]
  obtain ⟨s', hc⟩ := createEventMap_failed cfg.codec (afterGets cfg before r0).ra _ hfail
  refine ⟨{ (afterGets cfg before r0) with readMap := true, stream := s' }, ?_, ?_⟩
  · unfold Reader.getNumberOfEvents Reader.needMap
    rw [if_neg (by rw [hrm]; simp), hc]
  · unfold Reader.getNumberOfEvents Reader.needMap
    simp only [if_true, hra]

/-- **C85** fails for events with the same numbers: if two events of the file have the same run and event number, `getNumberOfEvents` returns less than the number of events that were written and
that are read one after the other. -/
theorem C85_fails_same_numbers (cfg : RConfig) (hcodec : Lossless cfg.codec) (ss : List Session) (hs : SessionsOk cfg.codec cfg.std ss) (hd : DirectOk ss)
    (hl : Loadable cfg (allPuts ss)) (name : Str) (hsame : ¬ (((allPuts ss).filter Put.isEvent).map Put.key).Nodup) :
    ∃ bytes, fileAfter cfg.codec cfg.std ss = .ok (some bytes) ∧ (bytes.length < 2 ^ 31 → ∀ direct, ∃ r n, Reader.openFiles cfg direct [(name, bytes)] = (.ok (), r) ∧
      (r.getNumberOfEvents cfg).1 = .ok n ∧ n < ((allPuts ss).filter Put.isEvent).length) := by
  obtain ⟨bytes, h1, h2⟩ := counts_main cfg hcodec ss hs hd hl name
  refine ⟨bytes, h1, fun hlen direct => ?_⟩
  obtain ⟨r, e1, e2⟩ := h2 hlen direct
  obtain ⟨r', f1, -⟩ := e2 [] (by simp [serve])
  refine ⟨r, _, e1, by rw [show r = afterGets cfg [] r from rfl, f1], ?_⟩
  have := distinct_length (((allPuts ss).filter Put.isEvent).map Put.key)
  rw [List.length_map] at this
  unfold eventsIn
  rcases Nat.lt_or_eq_of_le this.1 with h | h
  · exact h
  · exact absurd (this.2.1 h) hsame

/-- If no two events have the same numbers, `getNumberOfEvents` returns the number of events that were written. -/
theorem C85_all_events (ss : List Session) (h : (((allPuts ss).filter Put.isEvent).map Put.key).Nodup) : eventsIn (allPuts ss) = ((allPuts ss).filter Put.isEvent).length := by
  have := (distinct_length (((allPuts ss).filter Put.isEvent).map Put.key)).2.2 h
  rw [List.length_map] at this
  exact this

/-- **C85** fails for several files: whatever files follow the first one, a new reader reports the numbers of events of the first file only. -/
theorem C85_fails_more_files (cfg : RConfig) (hcodec : Lossless cfg.codec) (ss : List Session) (hs : SessionsOk cfg.codec cfg.std ss) (hd : DirectOk ss)
    (hl : Loadable cfg (allPuts ss)) (name : Str) (rest : List (Str × List Byte)) :
    ∃ bytes, fileAfter cfg.codec cfg.std ss = .ok (some bytes) ∧ (bytes.length < 2 ^ 31 → ∀ direct, ∃ r, Reader.openFiles cfg direct ((name, bytes) :: rest) = (.ok (), r) ∧
      (r.getNumberOfEvents cfg).1 = .ok (eventsIn (allPuts ss)) ∧ (r.getNumberOfRuns cfg).1 = .ok (runsIn (allPuts ss))) := by
  obtain ⟨bytes, h1, h2⟩ := map_reports cfg hcodec ss hs hd hl
  refine ⟨bytes, h1, fun hlen direct => ?_⟩
  obtain ⟨ra, b, h3, h4⟩ := h2 hlen
  refine ⟨_, open_either cfg direct name bytes ra b h3 rest, ?_⟩
  cases direct with
  | true =>
    obtain ⟨c1, c2, -⟩ := calls_of_map cfg { files := (name, bytes) :: rest, stream := { bytes := bytes }, readMap := true, ra := ra } _ rfl rfl
    simp only [if_true]
    rw [c1, c2]
    exact ⟨by rw [h4.events], by rw [h4.runs]⟩
  | false =>
    have hn : ({ files := (name, bytes) :: rest, stream := { bytes := bytes } } : Reader).needMap cfg =
        (.ok (), { files := (name, bytes) :: rest, stream := { bytes := bytes }, readMap := true, ra := ra }) := by
      unfold Reader.needMap
      simp only [Bool.false_eq_true, if_false]
      rw [h3]
    obtain ⟨c1, c2, -⟩ := calls_of_map cfg _ _ hn rfl
    simp only [Bool.false_eq_true, if_false]
    rw [c1, c2]
    exact ⟨by rw [h4.events], by rw [h4.runs]⟩

/-- **C85** for the program `lcio_event_counter`: it prints the sum of the numbers of different events of the files whose names are given, which must be on the disk, be written like in
`C85_numbers_partial` and not be named like StdHep files. -/
theorem C85_program_partial (cfg : RConfig) (hcodec : Lossless cfg.codec) (disk : List (Str × List Byte)) (headers : Str → Except Err Int)
    (files : List (Str × List Session)) (h : ∀ f ∈ files, ∃ bytes, disk.lookup f.1 = some bytes ∧ fileAfter cfg.codec cfg.std f.2 = .ok (some bytes) ∧ bytes.length < 2 ^ 31 ∧
      SessionsOk cfg.codec cfg.std f.2 ∧ DirectOk f.2 ∧ Loadable cfg (allPuts f.2) ∧ ∀ pre, f.1 ≠ pre ++ str ".stdhep" ∧ f.1 ≠ str "stdhep") :
    eventCounter cfg disk headers 0 (files.map (·.1)) = .ok ((files.map fun f => eventsIn (allPuts f.2)).sum : Nat) := by
  have hdot : ∀ name : Str, (∀ pre, name ≠ pre ++ str ".stdhep" ∧ name ≠ str "stdhep") → afterDot name ≠ str "stdhep" := by
    intro name hn he
    unfold afterDot at he
    have h1 : (name.reverse.takeWhile fun c => c ≠ 46) = (str "stdhep").reverse := by rw [← he, List.reverse_reverse]
    have h2 := List.takeWhile_append_dropWhile (p := fun c : Byte => decide (c ≠ 46)) (l := name.reverse)
    rw [h1] at h2
    cases hd : (name.reverse.dropWhile fun c => decide (c ≠ 46)) with
    | nil =>
      rw [hd, List.append_nil] at h2
      exact (hn []).2 (by rw [← List.reverse_reverse name, ← h2, List.reverse_reverse])
    | cons c rest =>
      rw [hd] at h2
      have hc : c = 46 := by
        have := List.head_dropWhile_not (p := fun c : Byte => decide (c ≠ 46)) (l := name.reverse) (by rw [hd]; simp)
        simp only [hd, List.head_cons] at this
        simpa using this
      subst hc
      refine (hn rest.reverse).1 ?_
      rw [← List.reverse_reverse name, ← h2]
      simp [str]
  have key : ∀ (files : List (Str × List Session)) (total : Int), (∀ f ∈ files, ∃ bytes, disk.lookup f.1 = some bytes ∧ fileAfter cfg.codec cfg.std f.2 = .ok (some bytes) ∧ bytes.length < 2 ^ 31 ∧
      SessionsOk cfg.codec cfg.std f.2 ∧ DirectOk f.2 ∧ Loadable cfg (allPuts f.2) ∧ ∀ pre, f.1 ≠ pre ++ str ".stdhep" ∧ f.1 ≠ str "stdhep") →
      eventCounter cfg disk headers total (files.map (·.1)) = .ok (total + ((files.map fun f => eventsIn (allPuts f.2)).sum : Nat)) := by
    intro files
    induction files with
    | nil => intro total _; simp [eventCounter]
    | cons f files ih =>
      intro total h
      obtain ⟨bytes, h1, h2, h3, h4, h5, h6, h7⟩ := h f (by simp)
      obtain ⟨bytes', g1, g2⟩ := C85_fails_more_files cfg hcodec f.2 h4 h5 h6 f.1 []
      rw [h2] at g1
      cases g1
      obtain ⟨r, g3, g4, -⟩ := g2 h3 false
      rw [List.map_cons, eventCounter]
      unfold countFile
      rw [if_neg (hdot f.1 h7), h1]
      simp only [g3, g4]
      rw [ih _ fun x hx => h x (by simp [hx])]
      simp only [List.map_cons, List.sum_cons]
      congr 1
      omega
  rw [key files 0 h]
  simp

/-! ## Cases -/

/-- `C85_numbers_partial` and `C85_fails_position_lost` apply to a file of three sessions with a run header and three events; after one event has been read, a reader without direct access
goes back. -/
example : ∃ bytes, fileAfter sampleCfg.codec sampleCfg.std directSessions = .ok (some bytes) ∧ (bytes.length < 2 ^ 31 → ∃ r, Reader.openFiles sampleCfg false [(str "f", bytes)] = (.ok (), r) ∧
    ((afterGets sampleCfg [.event] r).getNumberOfEvents sampleCfg).1 = .ok 3 ∧ ((afterGets sampleCfg [.event] r).getNumberOfRuns sampleCfg).1 = .ok 1 ∧
    gets sampleCfg [.event, .event, .event, .event] ((afterGets sampleCfg [.event] r).getNumberOfEvents sampleCfg).2 =
      .ok (serve sampleCfg [.event, .event, .event, .event] ((allPuts directSessions).map fun p => (str "f", p)))) := by
  have hl := storable_loadable sampleCfg _ directSessions_storable
  have hb : none ∉ serve sampleCfg [.event] ((allPuts directSessions).map fun p => (str "f", p)) := by
    apply serve_events sampleCfg 1
    · intro x hx
      obtain ⟨p, hp, rfl⟩ := List.mem_map.1 hx
      exact hl p hp _
    · decide +kernel
  obtain ⟨bytes, h1, h2⟩ := C85_numbers_partial sampleCfg idCodec_lossless directSessions directSessions_ok directSessions_direct hl (str "f")
  obtain ⟨bytes', g1, g2⟩ := C85_fails_position_lost sampleCfg idCodec_lossless directSessions directSessions_ok directSessions_direct hl (str "f")
  rw [h1] at g1
  cases g1
  refine ⟨bytes, h1, fun hlen => ?_⟩
  obtain ⟨r, e1, e2⟩ := h2 hlen false
  obtain ⟨r', f1, f2⟩ := g2 hlen
  rw [e1] at f1
  simp only [Prod.mk.injEq, true_and] at f1
  subst f1
  obtain ⟨r1, c1, c2, -⟩ := e2 [.event] hb
  refine ⟨r, e1, ?_, ?_, f2 _ hb _⟩
  · rw [c1]
    have e : eventsIn (allPuts directSessions) = 3 := by decide +kernel
    rw [e]
  · rw [c2]
    have e : runsIn (allPuts directSessions) = 1 := by decide +kernel
    rw [e]

/-- A file with a run header and three events, two of which have the same numbers. -/
def twice : List Byte :=
  fileOfSessions [⟨false, [.run (runHeaderOf 1) [], .event { run := 1, evt := 0 } [] ([], []), .event { run := 1, evt := 1 } [] ([], []), .event { run := 1, evt := 1 } [] ([], [])]⟩]

/-- What the calls give on it: two events are reported, after two have been read the next is the first again, and after the end there is an exception and then the number 0. -/
example :
    let r := (Reader.openFiles sampleCfg false [(str "f", twice)]).2
    (r.getNumberOfEvents sampleCfg).1 = .ok 2 ∧ (r.getNumberOfRuns sampleCfg).1 = .ok 1 ∧ (r.getRuns sampleCfg).1 = .ok [1] ∧ (r.getEvents sampleCfg).1 = .ok [(1, 0), (1, 1)] ∧
    numbers (gets sampleCfg [.event, .event, .event, .event] r) = .ok [some (1, some 0), some (1, some 1), some (1, some 1), none] ∧
    numbers (gets sampleCfg [.event] ((afterGets sampleCfg [.event, .event] r).getNumberOfEvents sampleCfg).2) = .ok [some (1, some 0)] ∧
    ((afterGets sampleCfg [.event, .event, .event, .event] r).getNumberOfEvents sampleCfg).1 = .error .ioException ∧
    (((afterGets sampleCfg [.event, .event, .event, .event] r).getNumberOfEvents sampleCfg).2.getNumberOfEvents sampleCfg).1 = .ok 0 ∧
    eventCounter sampleCfg [(str "a.slcio", twice), (str "b", twice)] (fun _ => .ok 101) 0 [str "a.slcio", str "c.stdhep", str "b"] = .ok 104 := by
  decide +kernel

end Props
