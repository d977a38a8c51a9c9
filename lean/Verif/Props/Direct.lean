import Verif.Lcio.DirectLemmas
import Verif.Props.RunEvents
import Verif.Props.Skip
/-
Properties of direct access: C28 and C30.
-/
namespace Props
open Sio Spec Lcio

/-- **C28**, as far as it holds. A file is written in any sessions (the first creates it, the others append), where event numbers are not negative and the index of
each session is lossless in the sense of C25, and it is smaller than 2 GiB. When it is opened for direct access, then
* every run header or event written is in the event map, with a position at which reading finds it (or another one with the same numbers) and then all that comes after
  it: any calls of `readNextEvent` and `readNextRunHeader` give what they should. Nothing else is in the map.
* `getRuns` and `getEvents` list the runs that have a header and the events that were written, in order.
* the numbers of runs and events are those of the different run headers and events.

Missing: sessions whose index is not lossless (`C28_fails_for_enclosed_run`), and files of 2 GiB or more. -/
theorem C28_event_map_partial (cfg : RConfig) (hcodec : Lossless cfg.codec) (ss : List Session) (hs : SessionsOk cfg.codec cfg.std ss) (hd : DirectOk ss)
    (hl : Loadable cfg (allPuts ss)) (name : Str) :
    ∃ bytes, fileAfter cfg.codec cfg.std ss = .ok (some bytes) ∧ (bytes.length < 2 ^ 31 → ∃ r, Reader.openFiles cfg true [(name, bytes)] = (.ok (), r) ∧
      (∀ k : RunEvent, -1 ≤ k.evt.toInt → k ∉ (allPuts ss).map Put.key → r.ra.map.getPosition k = npos) ∧
      (∀ k ∈ (allPuts ss).map Put.key, r.ra.map.getPosition k ≠ npos ∧ ∃ pre p post, allPuts ss = pre ++ p :: post ∧ p.key = k ∧
        ∀ gs, gets cfg gs (seeked r (r.ra.map.getPosition k)) = .ok (serve cfg gs ((p :: post).map fun p => (name, p)))) ∧
      (∃ runs evts, r.ra.map.getRuns = .ok runs ∧ r.ra.map.getEvents = .ok evts ∧
        runs.Pairwise (fun a b => a.toInt < b.toInt) ∧ (∀ n, n ∈ runs ↔ ∃ p ∈ allPuts ss, p.isEvent = false ∧ p.key.run = n) ∧
        evts.Pairwise (fun a b => a.1.toInt < b.1.toInt ∨ (a.1.toInt = b.1.toInt ∧ a.2.toInt < b.2.toInt)) ∧
        (∀ n e, (n, e) ∈ evts ↔ ∃ p ∈ allPuts ss, p.isEvent = true ∧ p.key = ⟨n, e⟩) ∧
        r.ra.map.nRun = runs.length ∧ r.ra.map.nEvt = evts.length)) := by
  obtain ⟨bytes, h1, h2⟩ := open_direct cfg hcodec ss hs hd name
  refine ⟨bytes, h1, ?_⟩
  intro hlen
  obtain ⟨ra, L, h3, h4, h5, h6, h7⟩ := h2 hlen
  refine ⟨_, h3, ?_, ?_, ?_⟩
  · intro k hk hm
    have hinv := addAll_inv L {} [] MapInv.empty
    rw [List.nil_append] at hinv
    simp only
    rw [h4]
    rcases hinv.lookup h5 k hk with ⟨-, h⟩ | ⟨pos, h, -⟩
    · exact h
    · exact absurd ((h6 k).1 (List.mem_map.2 ⟨_, h, rfl⟩)) hm
  · intro k hk
    have hinv := addAll_inv L {} [] MapInv.empty
    rw [List.nil_append] at hinv
    simp only
    rw [h4]
    have hkr : -1 ≤ k.evt.toInt := by
      obtain ⟨p, hp, hp2⟩ := List.mem_map.1 hk
      rw [← hp2]; exact put_reg ss hd p hp
    rcases hinv.lookup h5 k hkr with ⟨h, -⟩ | ⟨pos, h, hpos⟩
    · exact absurd ((h6 k).2 hk) h
    · rw [hpos]
      obtain ⟨pre, p, post, ra', rb, e1, e2, e3, e4, e5⟩ := h7 k pos h
      obtain ⟨hnp, hat, -⟩ := direct_at cfg name bytes hlen ra ra' rb (p :: post) pos e3 e4 e5
      refine ⟨hnp, pre, p, post, e1, e2, ?_⟩
      · intro gs
        have := gets_serve cfg gs _ _ _ _ hat (by
          intro x hx
          simp only [following, items] at hx
          simp only [List.flatMap_cons, List.flatMap_nil, List.append_nil, List.mem_map] at hx
          obtain ⟨q, hq, rfl⟩ := hx
          exact hl q (by rw [e1]; exact List.mem_append_right _ hq) _)
        rw [this]
        simp [following, items]
  · obtain ⟨b1, b2⟩ := addAll_build L
    have hreg : regular (L.map fun e => MapOp.add e.1 e.2) := by
      unfold regular; rw [b2]; exact h5
    obtain ⟨runs, evts, c1, c2, c3, c4, c5, c6⟩ := C24_listing _ hreg
    simp only
    rw [h4, b1]
    have hmem : ∀ k, (∃ pos, (k, pos) ∈ additions (L.map fun e => MapOp.add e.1 e.2)) ↔ ∃ p ∈ allPuts ss, p.key = k := by
      intro k
      rw [b2]
      have := h6 k
      simp only [List.mem_map, Prod.exists, exists_and_right, exists_eq_right] at this
      exact this
    refine ⟨runs, evts, c1, c2, c3, ?_, c5, ?_, ?_, ?_⟩
    · intro n
      rw [c4, hmem]
      constructor
      · rintro ⟨p, hp, hk⟩
        refine ⟨p, hp, ?_, by rw [hk]⟩
        cases he : p.isEvent with
        | false => rfl
        | true =>
          have := hd.numbers p hp he
          rw [hk] at this
          exact absurd this (by simp only; decide)
      · rintro ⟨p, hp, he, rfl⟩
        refine ⟨p, hp, ?_⟩
        cases p with
        | run => rfl
        | event => simp [Put.isEvent] at he
    · intro n e
      rw [c6, hmem]
      constructor
      · rintro ⟨hne, p, hp, hk⟩
        refine ⟨p, hp, ?_, hk⟩
        cases p with
        | run => simp [Put.key] at hk; exact absurd hk.2.symm hne
        | event => rfl
      · rintro ⟨p, hp, he, hk⟩
        refine ⟨?_, p, hp, hk⟩
        rintro rfl
        have := hd.numbers p hp he
        rw [hk] at this
        exact absurd this (by simp only; decide)
    · have := build_inv (L.map fun e => MapOp.add e.1 e.2)
      unfold RunEventMap.getRuns at c1
      split at c1
      · cases c1
      · split at c1
        · cases c1; simp; omega
        · cases c1
    · unfold RunEventMap.getEvents at c2
      split at c2
      · cases c2
      · simp only at c2
        split at c2
        · cases c2; simp; omega
        · cases c2

/-! ## C30 -/

/-- The event with these numbers. -/
def wantedEvent (run evt : W32) (p : Put) : Bool := p.isEvent && decide (p.key = ⟨run, evt⟩)

/-- **C30**, as far as it holds. A file as in C28 is opened twice, for direct access and without. For every run number and every event number that is not negative,
`readEvent` gives the same in both cases if there is at most one such event in the file: the event if there is one, otherwise null. If there are several, then
in both cases one is returned.

Missing: indices that are not lossless and large files as in C28, and negative event numbers (`C30_fails_for_negative_event`). -/
theorem C30_direct_is_search_partial (cfg : RConfig) (hcodec : Lossless cfg.codec) (ss : List Session) (hs : SessionsOk cfg.codec cfg.std ss) (hd : DirectOk ss)
    (hst : ∀ h cols buf, Put.event h cols buf ∈ allPuts ss → Storable cfg.std cfg.ignoreNull [] cfg.wanted h cols) (name : Str) :
    ∃ bytes, fileAfter cfg.codec cfg.std ss = .ok (some bytes) ∧ (bytes.length < 2 ^ 31 → ∃ r r',
      Reader.openFiles cfg true [(name, bytes)] = (.ok (), r) ∧ Reader.openFiles cfg false [(name, bytes)] = (.ok (), r') ∧
      ∀ run evt : W32, 0 ≤ evt.toInt →
        ((∀ p ∈ allPuts ss, wantedEvent run evt p = false) → (r.readEvent cfg run evt).1 = .ok none ∧ (r'.readEvent cfg run evt).1 = .ok none) ∧
        ((∃ p ∈ allPuts ss, wantedEvent run evt p = true) → ∃ e e' p p', p ∈ allPuts ss ∧ p' ∈ allPuts ss ∧ wantedEvent run evt p = true ∧ wantedEvent run evt p' = true ∧
          delivery cfg name p = some (.event e) ∧ delivery cfg name p' = some (.event e') ∧
          (r.readEvent cfg run evt).1 = .ok (some e) ∧ (r'.readEvent cfg run evt).1 = .ok (some e')) ∧
        ((allPuts ss).countP (wantedEvent run evt) ≤ 1 → (r.readEvent cfg run evt).1 = (r'.readEvent cfg run evt).1)) := by
  obtain ⟨bytes, h1, h2⟩ := open_direct cfg hcodec ss hs hd name
  refine ⟨bytes, h1, ?_⟩
  intro hlen
  obtain ⟨ra, L, h3, h4, h5, h6, h7⟩ := h2 hlen
  obtain ⟨r', c, cs, f1, f2, f3, -⟩ := open_at cfg hcodec [(name, bytes)] [(name, ss)] (Lcio.All2.cons ⟨rfl, h1, .inl hs⟩ (Lcio.All2.nil _)) (by simp)
    (by intro c hc; simp at hc; subst hc; exact storable_loadable cfg _ hst)
  cases f2
  have hrm : r'.readMap = false := by
    have : (.ok (), r') = (Reader.openFiles cfg false [(name, bytes)]) := f1.symm
    simp only [Reader.openFiles, Reader.openFile] at this
    cases this; rfl
  have hnum : Numbered cfg name (allPuts ss) := by
    intro p hp he
    cases p with
    | run => simp [Put.isEvent] at he
    | event h cols buf =>
      obtain ⟨h', L, T, e1, ⟨e2, e3, -⟩, -⟩ := event_loaded cfg.std cfg.ignoreNull [] cfg.wanted h cols (hst h cols buf hp) buf 0 1 (by omega)
      refine ⟨(h', withDaughters (kids L) L), ?_, ?_⟩
      · simp only [delivery, e1]
      · simp only [Put.key, e2, e3]
  refine ⟨_, r', h3, f1, ?_⟩
  intro run evt hevt
  obtain ⟨s1, s2⟩ := search_at cfg run evt r' hrm _ _ _ f3 hnum
  have hinv := addAll_inv L {} [] MapInv.empty
  rw [List.nil_append] at hinv
  have hone : (∀ p ∈ allPuts ss, wantedEvent run evt p = false) ↔ ∀ p ∈ allPuts ss, p.isEvent = true → p.key ≠ ⟨run, evt⟩ := by
    simp [wantedEvent]
  have hkey : (∃ p ∈ allPuts ss, wantedEvent run evt p = true) ↔ (⟨run, evt⟩ : RunEvent) ∈ (allPuts ss).map Put.key := by
    simp only [wantedEvent, Bool.and_eq_true, decide_eq_true_eq, List.mem_map]
    constructor
    · rintro ⟨p, hp, -, hk⟩; exact ⟨p, hp, hk⟩
    · rintro ⟨p, hp, hk⟩
      refine ⟨p, hp, ?_, hk⟩
      cases p with
      | run h buf =>
        simp only [Put.key, RunEvent.mk.injEq] at hk
        rw [← hk.2] at hevt
        exact absurd hevt (by decide)
      | event => rfl
  have hnone : (∀ p ∈ allPuts ss, wantedEvent run evt p = false) →
      (Reader.readEvent cfg { files := [(name, bytes)], stream := { bytes := bytes }, readMap := true, ra := ra } run evt).1 = .ok none := by
    intro hx
    unfold Reader.readEvent
    simp only [if_true, h4]
    rcases hinv.lookup h5 ⟨run, evt⟩ (by simp only; omega) with ⟨-, h⟩ | ⟨pos, h, -⟩
    · rw [h]; simp
    · obtain ⟨p, hp, hp2⟩ := hkey.2 ((h6 _).1 (List.mem_map.2 ⟨_, h, rfl⟩))
      rw [hx p hp] at hp2; cases hp2
  have hsome : (∃ p ∈ allPuts ss, wantedEvent run evt p = true) → ∃ e p, p ∈ allPuts ss ∧ wantedEvent run evt p = true ∧ delivery cfg name p = some (.event e) ∧
      (Reader.readEvent cfg { files := [(name, bytes)], stream := { bytes := bytes }, readMap := true, ra := ra } run evt).1 = .ok (some e) := by
    intro hx
    rcases hinv.lookup h5 ⟨run, evt⟩ (by simp only; omega) with ⟨h, -⟩ | ⟨pos, h, hpos⟩
    · exact absurd ((h6 _).2 (hkey.1 hx)) h
    · obtain ⟨pre, p, post, ra', rb, e1, e2, e3, e4, e5⟩ := h7 _ pos h
      obtain ⟨hnp, hat, hsk⟩ := direct_at cfg name bytes hlen ra ra' rb (p :: post) pos e3 e4 e5
      have hp : p ∈ allPuts ss := by rw [e1]; simp
      have hpe : p.isEvent = true := by
        cases p with
        | run h buf =>
          simp only [Put.key, RunEvent.mk.injEq] at e2
          rw [← e2.2] at hevt
          exact absurd hevt (by decide)
        | event => rfl
      obtain ⟨e, he, -⟩ := hnum p hp hpe
      refine ⟨e, p, hp, by simp [wantedEvent, hpe, e2], he, ?_⟩
      obtain ⟨r2, ps2, rest2, g1, -⟩ := (next_event cfg _ _ _ _ hat).2 (name, p) (post.map fun p => (name, p)) e
        (by simp [following, items, hpe]) he
      unfold Reader.readEvent
      simp only [if_true, h4]
      rw [hpos, if_pos hnp, hsk]
      simp only
      rw [g1]
  have hfirst : (∃ p ∈ allPuts ss, wantedEvent run evt p = true) → ∃ pre p post, allPuts ss = pre ++ p :: post ∧ (∀ p ∈ pre, wantedEvent run evt p = false) ∧
      wantedEvent run evt p = true := by
    intro hx
    cases hfi : (allPuts ss).find? (wantedEvent run evt) with
    | none =>
      obtain ⟨p, hp, hp2⟩ := hx
      exact absurd hp2 (List.find?_eq_none.1 hfi p hp)
    | some p =>
      obtain ⟨hp, pre, post, e1, e2⟩ := List.find?_eq_some_iff_append.1 hfi
      exact ⟨pre, p, post, e1, fun q hq => by simpa using e2 q hq, hp⟩
  have hsearch : (∃ p ∈ allPuts ss, wantedEvent run evt p = true) → ∃ e p, p ∈ allPuts ss ∧ wantedEvent run evt p = true ∧ delivery cfg name p = some (.event e) ∧
      (r'.readEvent cfg run evt).1 = .ok (some e) := by
    intro hx
    obtain ⟨pre, p, post, e1, e2, e3⟩ := hfirst hx
    have e3' := e3
    simp only [wantedEvent, Bool.and_eq_true, decide_eq_true_eq] at e3'
    obtain ⟨e, g1, g2⟩ := s2 pre p post e1 (fun q hq => by simpa [wantedEvent] using e2 q hq) e3'.1 e3'.2
    exact ⟨e, p, by rw [e1]; simp, e3, g2, g1⟩
  refine ⟨fun hx => ⟨hnone hx, s1 (hone.1 hx)⟩, ?_, ?_⟩
  · intro hx
    obtain ⟨e, p, a1, a2, a3, a4⟩ := hsome hx
    obtain ⟨e', p', b1, b2, b3, b4⟩ := hsearch hx
    exact ⟨e, e', p, p', a1, b1, a2, b2, a3, b3, a4, b4⟩
  · intro hc
    by_cases hx : ∃ p ∈ allPuts ss, wantedEvent run evt p = true
    · obtain ⟨e, p, a1, a2, a3, a4⟩ := hsome hx
      obtain ⟨e', p', b1, b2, b3, b4⟩ := hsearch hx
      have : p = p' := by
        rw [List.countP_eq_length_filter] at hc
        have m1 : p ∈ (allPuts ss).filter (wantedEvent run evt) := List.mem_filter.2 ⟨a1, a2⟩
        have m2 : p' ∈ (allPuts ss).filter (wantedEvent run evt) := List.mem_filter.2 ⟨b1, b2⟩
        cases hf : (allPuts ss).filter (wantedEvent run evt) with
        | nil => rw [hf] at m1; cases m1
        | cons y ys =>
          rw [hf] at hc m1 m2
          simp at hc
          subst hc
          simp at m1 m2
          rw [m1, m2]
      subst this
      rw [a3] at b3
      cases b3
      rw [a4, b4]
    · have hx' : ∀ p ∈ allPuts ss, wantedEvent run evt p = false := by
        intro p hp
        cases hw : wantedEvent run evt p with
        | false => rfl
        | true => exact absurd ⟨p, hp, hw⟩ hx
      rw [hnone hx', s1 (hone.1 hx')]

/-! ## Cases -/

/-- Two sessions and one that writes nothing; in the last one events of two runs. -/
def directSessions : List Session :=
  [⟨false, [.run (runHeaderOf 3) [], .event sampleEventHeader sampleCols ([7, 7], [])]⟩,
   ⟨true, []⟩,
   ⟨true, [.event { run := 4, evt := 0 } [] ([], []), .event { run := 3, evt := 9 } tinyCols ([], [])]⟩]

theorem directSessions_ok : SessionsOk sampleCfg.codec sampleCfg.std directSessions := by
  have h := sampleSessions_ok
  refine ⟨?_, ⟨_, _, rfl, by simp⟩, by decide⟩
  intro s hs
  simp only [directSessions, List.mem_cons, List.not_mem_nil, or_false] at hs
  rcases hs with rfl | rfl | rfl
  · exact h.each _ (by simp [sampleSessions])
  · exact h.each _ (by simp [sampleSessions])
  · refine ⟨?_, by decide +kernel⟩
    have h3 := (h.each _ (by simp only [sampleSessions]; exact .tail _ (.tail _ (.head _)))).puts
    intro p hp
    simp only [List.mem_cons, List.not_mem_nil, or_false] at hp
    exact h3 p (by rcases hp with rfl | rfl <;> simp)

theorem directSessions_storable : ∀ h cols buf, Put.event h cols buf ∈ allPuts directSessions →
    Storable sampleCfg.std sampleCfg.ignoreNull [] sampleCfg.wanted h cols := by
  intro h cols buf hm
  apply sampleSessions_storable h cols buf
  simp only [allPuts, directSessions, sampleSessions, List.flatMap_cons, List.flatMap_nil, List.append_nil, List.nil_append, List.mem_append, List.mem_cons,
    List.not_mem_nil, or_false, reduceCtorEq, false_or] at hm ⊢
  tauto

theorem directSessions_direct : DirectOk directSessions := by
  refine ⟨?_, ?_⟩
  · intro p hp _
    simp only [allPuts, directSessions, List.flatMap_cons, List.flatMap_nil, List.append_nil, List.nil_append, List.mem_append, List.mem_cons, List.not_mem_nil, or_false] at hp
    rcases hp with (rfl | rfl) | rfl | rfl <;> (simp_all [Put.isEvent, Put.key]; try decide)
  · intro s hs
    simp only [directSessions, List.mem_cons, List.not_mem_nil, or_false] at hs
    rcases hs with rfl | rfl | rfl
    · left; decide +kernel
    · left; simp
    · right
      refine ⟨.event { run := 3, evt := 9 } tinyCols ([], []), by simp, .event { run := 4, evt := 0 } [] ([], []), by simp, ?_⟩
      decide +kernel

/-- C28 and C30 apply to these sessions. -/
example : ∃ bytes, fileAfter sampleCfg.codec sampleCfg.std directSessions = .ok (some bytes) ∧ (bytes.length < 2 ^ 31 → ∃ r,
    Reader.openFiles sampleCfg true [(str "f", bytes)] = (.ok (), r) ∧ ∃ p ∈ allPuts directSessions, p.key = ⟨3, 9⟩ ∧
      ∃ post, ∀ gs, gets sampleCfg gs (seeked r (r.ra.map.getPosition ⟨3, 9⟩)) = .ok (serve sampleCfg gs ((p :: post).map fun p => (str "f", p)))) := by
  obtain ⟨bytes, h1, h2⟩ := C28_event_map_partial sampleCfg idCodec_lossless directSessions directSessions_ok directSessions_direct
    (storable_loadable _ _ directSessions_storable) (str "f")
  refine ⟨bytes, h1, fun hb => ?_⟩
  obtain ⟨r, h3, -, h4, -⟩ := h2 hb
  obtain ⟨-, pre, p, post, h5, h6, h7⟩ := h4 ⟨3, 9⟩ (by decide +kernel)
  exact ⟨r, h3, p, by rw [h5]; simp, h6, post, h7⟩

example : ∃ bytes, fileAfter sampleCfg.codec sampleCfg.std directSessions = .ok (some bytes) ∧ (bytes.length < 2 ^ 31 → ∃ r r',
      Reader.openFiles sampleCfg true [(str "f", bytes)] = (.ok (), r) ∧ Reader.openFiles sampleCfg false [(str "f", bytes)] = (.ok (), r') ∧
      (r.readEvent sampleCfg 4 0).1 = (r'.readEvent sampleCfg 4 0).1 ∧ ∃ e, (r.readEvent sampleCfg 4 0).1 = .ok (some e)) := by
  obtain ⟨bytes, h1, h2⟩ := C30_direct_is_search_partial sampleCfg idCodec_lossless directSessions directSessions_ok directSessions_direct directSessions_storable (str "f")
  refine ⟨bytes, h1, fun hb => ?_⟩
  obtain ⟨r, r', h3, h4, h5⟩ := h2 hb
  obtain ⟨-, h6, h7⟩ := h5 4 0 (by decide)
  obtain ⟨e, -, -, -, -, -, -, -, -, -, h8, -⟩ := h6 (by decide +kernel)
  exact ⟨r, r', h3, h4, h7 (by decide +kernel), e, h8⟩

/-- The file after some sessions. -/
def fileOfSessions (ss : List Session) : List Byte :=
  match fileAfter idCodec ieee ss with
  | .ok (some b) => b
  | _ => []

/-- What `readEvent` gives on a new reader: run number and event number. -/
def eventRead (direct : Bool) (ss : List Session) (run evt : W32) : Except Err (Option (Int × Int)) :=
  match ((Reader.openFiles sampleCfg direct [(str "f", fileOfSessions ss)]).2.readEvent sampleCfg run evt).1 with
  | .error e => .error e
  | .ok none => .ok none
  | .ok (some e) => .ok (some (e.1.run.toInt, e.1.evt.toInt))

/-- **C28** and **C30** fail when the first and the last entry of a session have the same run number but there are others. Here after a header of run 4 an event
of run 3 (for example the last one of the previous run) and one of run 4 are written. With direct access the event of run 3 is not found, instead there seems to be an event 9
of run 4. -/
theorem C28_fails_for_enclosed_run :
    let ss : List Session := [⟨false, [.run { run := 4 } [], .event { run := 3, evt := 9 } [] ([], []), .event { run := 4, evt := 0 } [] ([], [])]⟩]
    (Reader.openFiles sampleCfg true [(str "f", fileOfSessions ss)]).2.ra.map.getEvents = .ok [(4, 0), (4, 9)] ∧
    eventRead false ss 3 9 = .ok (some (3, 9)) ∧ eventRead true ss 3 9 = .ok none ∧ eventRead true ss 4 9 = .ok (some (3, 9)) ∧
    eventRead false ss 4 9 = .ok none := by
  decide +kernel

/-- **C30** fails for negative event numbers: with direct access `readEvent(4, -1)` (and -2, and so on) goes to the header of run 4 and returns the next event after it. -/
theorem C30_fails_for_negative_event :
    let ss : List Session := [⟨false, [.run { run := 4 } [], .event { run := 4, evt := 0 } [] ([], [])]⟩]
    eventRead false ss 4 (-1) = .ok none ∧ eventRead true ss 4 (-1) = .ok (some (4, 0)) ∧ eventRead true ss 4 (-2) = .ok (some (4, 0)) := by
  decide +kernel

/-- When numbers occur twice, the event found by direct access is the one of the first session with it, and in a session the last one. -/
example :
    let ev := fun e w => Put.event { run := 1, evt := e, time := w } [] ([], [])
    let ss : List Session := [⟨false, [ev 0 10, ev 7 11, ev 7 12]⟩, ⟨false, [ev 7 13]⟩]
    ((Reader.openFiles sampleCfg true [(str "f", fileOfSessions ss)]).2.readEvent sampleCfg 1 7).1.toOption.map (fun e => e.map (·.1.time)) = some (some 12) ∧
    ((Reader.openFiles sampleCfg false [(str "f", fileOfSessions ss)]).2.readEvent sampleCfg 1 7).1.toOption.map (fun e => e.map (·.1.time)) = some (some 11) := by
  decide +kernel

/-- **C28**, run headers. For a file as in C28 opened for direct access, `readRunHeader` returns null if no header of this run was written, and otherwise the header of this run (one of them if there are several).

Missing: the same as in C28. -/
theorem C28_run_header_partial (cfg : RConfig) (hcodec : Lossless cfg.codec) (ss : List Session) (hs : SessionsOk cfg.codec cfg.std ss) (hd : DirectOk ss) (name : Str) :
    ∃ bytes, fileAfter cfg.codec cfg.std ss = .ok (some bytes) ∧ (bytes.length < 2 ^ 31 → ∃ r, Reader.openFiles cfg true [(name, bytes)] = (.ok (), r) ∧
      ∀ run : W32,
        ((∀ h buf, Put.run h buf ∈ allPuts ss → h.run ≠ run) → (r.readRunHeader cfg run).1 = .ok none) ∧
        ((∃ h buf, Put.run h buf ∈ allPuts ss ∧ h.run = run) → ∃ h buf hd, Put.run h buf ∈ allPuts ss ∧ h.run = run ∧ (Put.run h buf).loadedRun name = some hd ∧
          (r.readRunHeader cfg run).1 = .ok (some hd))) := by
  obtain ⟨bytes, h1, h2⟩ := open_direct cfg hcodec ss hs hd name
  refine ⟨bytes, h1, ?_⟩
  intro hlen
  obtain ⟨ra, L, h3, h4, h5, h6, h7⟩ := h2 hlen
  refine ⟨_, h3, ?_⟩
  intro run
  have hinv := addAll_inv L {} [] MapInv.empty
  rw [List.nil_append] at hinv
  have isRun : ∀ p ∈ allPuts ss, p.key = ⟨run, -1⟩ → ∃ h buf, p = Put.run h buf ∧ h.run = run := by
    intro p hp hk
    cases p with
    | run h buf => simp only [Put.key, RunEvent.mk.injEq] at hk; exact ⟨h, buf, rfl, hk.1⟩
    | event h cols buf =>
      have := hd.numbers _ hp rfl
      rw [hk] at this
      exact absurd this (show ¬ (0 : Int) ≤ (-1 : W32).toInt by decide)
  constructor
  · intro hno
    unfold Reader.readRunHeader
    simp only [if_true, h4]
    rcases hinv.lookup h5 ⟨run, -1⟩ (show (-1 : Int) ≤ (-1 : W32).toInt by decide) with ⟨-, h⟩ | ⟨pos, h, -⟩
    · rw [h]; simp
    · obtain ⟨p, hp, hp2⟩ := List.mem_map.1 ((h6 _).1 (List.mem_map.2 ⟨_, h, rfl⟩))
      obtain ⟨h, buf, rfl, hr⟩ := isRun p hp hp2
      exact absurd hr (hno h buf hp)
  · rintro ⟨h, buf, hm, hr⟩
    rcases hinv.lookup h5 ⟨run, -1⟩ (show (-1 : Int) ≤ (-1 : W32).toInt by decide) with ⟨hn, -⟩ | ⟨pos, hh, hpos⟩
    · exact absurd ((h6 _).2 (List.mem_map.2 ⟨_, hm, by rw [← hr]; rfl⟩)) hn
    · obtain ⟨pre, p, post, ra', rb, e1, e2, e3, e4, e5⟩ := h7 _ pos hh
      obtain ⟨hnp, hat, hsk⟩ := direct_at cfg name bytes hlen ra ra' rb (p :: post) pos e3 e4 e5
      have hp : p ∈ allPuts ss := by rw [e1]; simp
      obtain ⟨h', buf', rfl, hr'⟩ := isRun p hp e2
      refine ⟨h', buf', _, hp, hr', rfl, ?_⟩
      obtain ⟨r2, ps2, rest2, g1, -⟩ := (next_run cfg _ _ _ _ hat).2 (name, .run h' buf') (post.map fun p => (name, p)) _
        (by simp [following, items, Put.isEvent]) rfl
      unfold Reader.readRunHeader
      simp only [if_true, h4]
      rw [hpos, if_pos hnp, hsk]
      simp only
      rw [g1]

example : ∃ bytes, fileAfter sampleCfg.codec sampleCfg.std directSessions = .ok (some bytes) ∧ (bytes.length < 2 ^ 31 → ∃ r,
    Reader.openFiles sampleCfg true [(str "f", bytes)] = (.ok (), r) ∧ (r.readRunHeader sampleCfg 4).1 = .ok none ∧ ∃ hd, (r.readRunHeader sampleCfg 3).1 = .ok (some hd) ∧ hd.run = 3) := by
  obtain ⟨bytes, h1, h2⟩ := C28_run_header_partial sampleCfg idCodec_lossless directSessions directSessions_ok directSessions_direct (str "f")
  refine ⟨bytes, h1, fun hb => ?_⟩
  obtain ⟨r, h3, h4⟩ := h2 hb
  have hruns : ∀ h buf, Put.run h buf ∈ allPuts directSessions → h.run = 3 := by
    intro h buf hm
    simp only [allPuts, directSessions, List.flatMap_cons, List.flatMap_nil, List.append_nil, List.nil_append, List.mem_append, List.mem_cons, List.not_mem_nil, or_false, reduceCtorEq,
      Put.run.injEq] at hm
    obtain ⟨rfl, -⟩ := hm
    rfl
  refine ⟨r, h3, (h4 4).1 (fun h buf hm => by rw [hruns h buf hm]; decide), ?_⟩
  obtain ⟨h, buf, hd, -, g1, g2, g3⟩ := (h4 3).2 ⟨_, [], by simp only [allPuts, directSessions, List.flatMap_cons]; exact List.mem_append_left _ (.head _), rfl⟩
  refine ⟨hd, g3, ?_⟩
  cases g2
  exact g1

/-- **C30** does not hold for run headers: a reader without direct access returns null from `readRunHeader` for every run number, whatever is in the files. -/
theorem C30_fails_for_run_headers (cfg : RConfig) (r : Reader) (hr : r.readMap = false) (run : W32) : r.readRunHeader cfg run = (.ok none, r) := by
  unfold Reader.readRunHeader
  rw [hr]
  rfl

/-- Such a reader, of a file with the header of run 4. -/
example :
    let r := (Reader.openFiles sampleCfg false [(str "f", fileOfSessions [⟨false, [.run { run := 4 } []]⟩])]).2
    let r' := (Reader.openFiles sampleCfg true [(str "f", fileOfSessions [⟨false, [.run { run := 4 } []]⟩])]).2
    r.readMap = false ∧ (r'.readRunHeader sampleCfg 4).1.toOption.map (fun h => h.map (·.run)) = some (some 4) ∧
    (r.readRunHeader sampleCfg 4).1.toOption.map (fun h => h.map (·.run)) = some none := by decide +kernel

end Props
