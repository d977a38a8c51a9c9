import Verif.Lcio.ReaderLemmas
/-
A reader as a cursor in a list of things that were written.
-/
namespace Lcio
open Sio Spec

/-- A file with what was written to it. -/
def FileHolds (codec : Codec) (std : Std Pid) (bytes : List Byte) (ps : List Put) : Prop := ∃ rs, bytes = fileOf rs ∧ Layout codec std ps rs

/-- The reader is in a file with this name where `ps` follow, and `rest` are the next files. -/
structure At (cfg : RConfig) (r : Reader) (name : Str) (ps : List Put) (rest : List (Str × List Put)) : Prop where
  stream : ∃ pre rs, r.stream = ready (pre ++ fileOf rs) pre.length ∧ Layout cfg.codec cfg.std ps rs
  file : r.fileName = .ok name
  files : All2 (fun f q => f.1 = q.1 ∧ FileHolds cfg.codec cfg.std f.2 q.2) (r.files.drop (r.index + 1)) rest

theorem fileOf_length (rs : List Rec) : rs.length ≤ (fileOf rs).length := by
  induction rs with
  | nil => simp
  | cons r rs ih =>
    have := wire_pos r
    rw [fileOf_cons, List.length_append, List.length_cons]; omega

/-- Reading records at the position of a reader. -/
theorem readRecords_at {σ : Type} (valid : σ → RecordInfo → σ × Bool) (func : σ → RecordInfo → List Byte → σ × Except Err Bool)
    (pre : List Byte) (rs : List Rec) (hr : ∀ r ∈ rs, r.Ok) (buf : List Byte) (st : σ) :
    ∃ s' buf', readRecords valid func (recordFuel (ready (pre ++ fileOf rs) pre.length)) st (ready (pre ++ fileOf rs) pre.length) buf =
        ((scan valid func st pre.length rs).1, (scan valid func st pre.length rs).2.1, s', buf') ∧
      ((scan valid func st pre.length rs).2.2 = none → s' = failed (pre ++ fileOf rs) (pre ++ fileOf rs).length) ∧
      ∀ mid rs', rs = mid ++ rs' → (scan valid func st pre.length rs).2.2 = some rs' →
        s' = ready ((pre ++ fileOf mid) ++ fileOf rs') (pre ++ fileOf mid).length := by
  obtain ⟨s', buf', h1, h2⟩ := readRecords_scan valid func rs hr pre buf st (recordFuel (ready (pre ++ fileOf rs) pre.length))
    (by have := fileOf_length rs; simp only [recordFuel, List.length_append]; omega) pre.length rfl
  refine ⟨s', buf', h1, ?_, ?_⟩
  · intro h; rw [h] at h2; exact h2
  · intro mid rs' hm h
    rw [h] at h2
    rw [h2]
    subst hm
    simp only [fileOf_append, List.append_assoc, List.length_append]
    congr 1
    omega

/-- Going to the next file. -/
theorem nextFile_at (cfg : RConfig) (r : Reader) (q : Str × List Put) (rest : List (Str × List Put))
    (hf : All2 (fun f q => f.1 = q.1 ∧ FileHolds cfg.codec cfg.std f.2 q.2) (r.files.drop (r.index + 1)) (q :: rest)) :
    r.hasNext = true ∧ ∃ r', r.nextFile cfg = (.ok (), r') ∧ At cfg r' q.1 q.2 rest ∧ r'.files = r.files := by
  have hlen := hf.1
  rw [List.length_drop, List.length_cons] at hlen
  have hlt : r.index + 1 < r.files.length := by omega
  refine ⟨by simp [Reader.hasNext, hlt], ?_⟩
  rw [List.drop_eq_getElem_cons hlt] at hf
  obtain ⟨b, rest', e1, ⟨e0, e2⟩, e3⟩ := hf.cons_inv
  simp only [List.cons.injEq] at e1
  obtain ⟨rfl, rfl⟩ := e1
  obtain ⟨rs, h1, h2⟩ := e2
  unfold Reader.nextFile
  simp only [Reader.close]
  rw [List.getElem?_eq_getElem hlt]
  simp only
  unfold Reader.openFile
  simp only [Bool.false_eq_true, if_false]
  refine ⟨_, rfl, ⟨⟨[], rs, ?_, h2⟩, ?_, e3⟩, rfl⟩
  · simp only [h1, List.nil_append]
    rfl
  · unfold Reader.fileName
    simp only
    rw [List.getElem?_eq_getElem hlt, ← e0]

theorem noNext (cfg : RConfig) (r : Reader)
    (hf : All2 (fun (f : Str × List Byte) (q : Str × List Put) => f.1 = q.1 ∧ FileHolds cfg.codec cfg.std f.2 q.2) (r.files.drop (r.index + 1)) []) :
    r.hasNext = false := by
  have hlen := hf.1
  rw [List.length_drop, List.length_nil] at hlen
  simp only [Reader.hasNext, decide_eq_false_iff_not]; omega

/-- What follows in the file and in the next files. -/
def following (name : Str) (ps : List Put) (rest : List (Str × List Put)) : List (Str × Put) := items ((name, ps) :: rest)

theorem following_eq (name : Str) (ps : List Put) (rest : List (Str × List Put)) : following name ps rest = ps.map (fun p => (name, p)) ++ items rest := by
  simp [following, items]

theorem following_nil (name : Str) (q : Str × List Put) (rest : List (Str × List Put)) :
    following name [] (q :: rest) = following q.1 q.2 rest := by
  simp [following, items]

theorem following_split (want : Put → Bool) (name : Str) (ps : List Put) (rest : List (Str × List Put)) :
    (∃ pre p ps', ps = pre ++ p :: ps' ∧ (∀ p ∈ pre, want p = false) ∧ want p = true ∧
      (following name ps rest).dropWhile (fun x => !want x.2) = (name, p) :: following name ps' rest) ∨
    ((∀ p ∈ ps, want p = false) ∧
      (following name ps rest).dropWhile (fun x => !want x.2) = (following name [] rest).dropWhile (fun x => !want x.2)) := by
  induction ps with
  | nil => right; simp
  | cons p ps ih =>
    have e : following name (p :: ps) rest = (name, p) :: following name ps rest := by simp [following_eq]
    cases hp : want p with
    | true => left; exact ⟨[], p, ps, rfl, by simp, hp, by rw [e]; simp [hp]⟩
    | false =>
      have e' : (following name (p :: ps) rest).dropWhile (fun x => !want x.2) = (following name ps rest).dropWhile (fun x => !want x.2) := by
        rw [e]; simp [hp]
      rw [e']
      rcases ih with ⟨pre, p', ps', a1, a2, a3, a4⟩ | ⟨a1, a2⟩
      · left
        refine ⟨p :: pre, p', ps', by rw [a1]; rfl, ?_, a3, a4⟩
        intro x hx
        rcases List.mem_cons.1 hx with rfl | hx
        · exact hp
        · exact a2 x hx
      · right
        refine ⟨?_, a2⟩
        intro x hx
        rcases List.mem_cons.1 hx with rfl | hx
        · exact hp
        · exact a1 x hx

/-- At the end of a file: go on with the next one. -/
def goOn {α : Type} (cfg : RConfig) (L : Reader → Except Err (Option α) × Reader) (r : Reader) : Except Err (Option α) × Reader :=
  if r.hasNext then
    match r.nextFile cfg with
    | (.error e, r) => (.error e, r)
    | (.ok (), r) => match L r with
      | (.error .eof, r) => (.ok none, r)
      | x => x
  else (.ok none, r)

/-- A loop over the files that finds the next thing of some kind in the current file, or goes to the next file. -/
theorem next_loop {α : Type} (cfg : RConfig) (want : Put → Bool) (val : Str → Put → α → Prop) (L : Nat → Reader → Except Err (Option α) × Reader)
    (here : ∀ fuel r name ps rest, At cfg r name ps rest → ∀ pre p ps', ps = pre ++ p :: ps' → (∀ p ∈ pre, want p = false) → ∀ a, val name p a →
      ∃ r', L (fuel + 1) r = (.ok (some a), r') ∧ At cfg r' name ps' rest ∧ r'.files = r.files)
    (gone : ∀ fuel r name ps rest, At cfg r name ps rest → (∀ p ∈ ps, want p = false) →
      ∃ r' : Reader, r'.files = r.files ∧ r'.index = r.index ∧ (∃ B p, r'.stream = failed B p) ∧ L (fuel + 1) r = goOn cfg (L fuel) r')
    (fuel : Nat) (r : Reader) (name : Str) (ps : List Put) (rest : List (Str × List Put)) (h : At cfg r name ps rest) (hf : rest.length < fuel) :
    ((following name ps rest).dropWhile (fun x => !want x.2) = [] → ∃ r', L fuel r = (.ok none, r') ∧ ∃ B p, r'.stream = failed B p) ∧
    ∀ x its a, (following name ps rest).dropWhile (fun x => !want x.2) = x :: its → val x.1 x.2 a →
      ∃ r' ps' rest', L fuel r = (.ok (some a), r') ∧ At cfg r' x.1 ps' rest' ∧ its = following x.1 ps' rest' ∧ r'.files = r.files := by
  induction rest generalizing fuel r name ps with
  | nil =>
    cases fuel with
    | zero => simp at hf
    | succ fuel =>
    rcases following_split want name ps [] with ⟨pre, p, ps', a1, a2, a3, a4⟩ | ⟨a1, a2⟩
    · rw [a4]
      refine ⟨by simp, ?_⟩
      intro x its a heq ha
      rw [List.cons.injEq] at heq
      obtain ⟨rfl, rfl⟩ := heq
      obtain ⟨r', b1, b2, b3⟩ := here fuel r name ps [] h pre p ps' a1 a2 a ha
      exact ⟨r', ps', [], b1, b2, rfl, b3⟩
    · rw [a2]
      refine ⟨fun _ => ?_, by simp [following, items]⟩
      obtain ⟨r', b1, b2, b4, b3⟩ := gone fuel r name ps [] h a1
      have hn := noNext cfg r' (by rw [b1, b2]; exact h.files)
      rw [goOn, hn] at b3
      exact ⟨r', b3, b4⟩
  | cons q rest ih =>
    cases fuel with
    | zero => simp at hf
    | succ fuel =>
    rcases following_split want name ps (q :: rest) with ⟨pre, p, ps', a1, a2, a3, a4⟩ | ⟨a1, a2⟩
    · rw [a4]
      refine ⟨by simp, ?_⟩
      intro x its a heq ha
      rw [List.cons.injEq] at heq
      obtain ⟨rfl, rfl⟩ := heq
      obtain ⟨r', b1, b2, b3⟩ := here fuel r name ps (q :: rest) h pre p ps' a1 a2 a ha
      exact ⟨r', ps', q :: rest, b1, b2, rfl, b3⟩
    · rw [a2, following_nil]
      obtain ⟨r1, b1, b2, -, b3⟩ := gone fuel r name ps (q :: rest) h a1
      obtain ⟨c1, r2, c2, c3, c4⟩ := nextFile_at cfg r1 q rest (by rw [b1, b2]; exact h.files)
      rw [goOn, c1, if_pos rfl, c2] at b3
      simp only at b3
      obtain ⟨d1, d2⟩ := ih fuel r2 q.1 q.2 c3 (by simp at hf; omega)
      refine ⟨?_, ?_⟩
      · intro hn
        obtain ⟨r', e1, e2⟩ := d1 hn
        exact ⟨r', by rw [b3, e1], e2⟩
      · intro x its a he1 he2
        obtain ⟨r', ps', rest', e1, e2, e3, e4⟩ := d2 x its a he1 he2
        exact ⟨r', ps', rest', by rw [b3, e1], e2, e3, by rw [e4, c4, b1]⟩

theorem At.rest_length {cfg : RConfig} {r : Reader} {name : Str} {ps : List Put} {rest : List (Str × List Put)} (h : At cfg r name ps rest) :
    rest.length < r.files.length + 1 := by
  have := h.files.1
  rw [List.length_drop] at this
  omega

/-! ## Events -/

/-- The next event in the current file. -/
theorem next_event_here (cfg : RConfig) (fuel : Nat) (r : Reader) (name : Str) (ps : List Put) (rest : List (Str × List Put)) (h : At cfg r name ps rest)
    (pre : List Put) (p : Put) (ps' : List Put) (hps : ps = pre ++ p :: ps') (hpre : ∀ p ∈ pre, p.isEvent = false) (e : EventData)
    (he : delivery cfg name p = some (.event e)) :
    ∃ r', Reader.readNextEventLoop cfg (fuel + 1) r = (.ok (some e), r') ∧ At cfg r' name ps' rest ∧ r'.files = r.files := by
  obtain ⟨pr, rs, h1, h2⟩ := h.stream
  obtain ⟨st', rs', mid, e0, a1, a2, a3, a4, a5⟩ := scan_events cfg h2 pre p ps' hps hpre e name he pr.length
  obtain ⟨s', buf', b1, -, b3⟩ := readRecords_at (fun st i => (st, isEventRecord i)) (eventProcessor cfg) pr rs h2.ok r.buf {}
  unfold Reader.readNextEventLoop
  rw [h1, b1, a1]
  simp only [a4, a5]
  refine ⟨_, rfl, ⟨⟨pr ++ fileOf mid, rs', ?_, a3⟩, h.file, h.files⟩, rfl⟩
  exact b3 mid rs' a2 (by rw [a1])

/-- No event in the current file. -/
theorem next_event_gone (cfg : RConfig) (fuel : Nat) (r : Reader) (name : Str) (ps : List Put) (rest : List (Str × List Put)) (h : At cfg r name ps rest)
    (hp : ∀ p ∈ ps, p.isEvent = false) :
    ∃ r' : Reader, r'.files = r.files ∧ r'.index = r.index ∧ (∃ B p, r'.stream = failed B p) ∧ Reader.readNextEventLoop cfg (fuel + 1) r = goOn cfg (Reader.readNextEventLoop cfg fuel) r' := by
  obtain ⟨pre, rs, h1, h2⟩ := h.stream
  have a1 := scan_events_none cfg h2 hp {} pre.length
  obtain ⟨s', buf', b1, b2, -⟩ := readRecords_at (fun st i => (st, isEventRecord i)) (eventProcessor cfg) pre rs h2.ok r.buf {}
  refine ⟨{ r with stream := s', buf := buf' }, rfl, rfl, ⟨_, _, b2 (by rw [a1])⟩, ?_⟩
  conv => lhs; unfold Reader.readNextEventLoop
  rw [h1, b1, a1]
  unfold goOn
  simp only
  split
  · cases Reader.nextFile cfg { r with stream := s', buf := buf' } with
    | mk x r' =>
    cases x with
    | error e => rfl
    | ok u =>
      simp only
      cases Reader.readNextEventLoop cfg fuel r' with
      | mk z r'' => cases z with
        | error e => cases e <;> rfl
        | ok v => rfl
  · rfl

theorem next_event (cfg : RConfig) (r : Reader) (name : Str) (ps : List Put) (rest : List (Str × List Put)) (h : At cfg r name ps rest) :
    ((following name ps rest).dropWhile (fun x => !x.2.isEvent) = [] → ∃ r', r.readNextEvent cfg = (.ok none, r') ∧ ∃ B p, r'.stream = failed B p) ∧
    ∀ x its e, (following name ps rest).dropWhile (fun x => !x.2.isEvent) = x :: its → delivery cfg x.1 x.2 = some (.event e) →
      ∃ r' ps' rest', r.readNextEvent cfg = (.ok (some e), r') ∧ At cfg r' x.1 ps' rest' ∧ its = following x.1 ps' rest' ∧ r'.files = r.files :=
  next_loop cfg Put.isEvent (fun name p e => delivery cfg name p = some (.event e)) (Reader.readNextEventLoop cfg)
    (fun fuel r name ps rest h pre p ps' h1 h2 e h3 => next_event_here cfg fuel r name ps rest h pre p ps' h1 h2 e h3)
    (fun fuel r name ps rest h hp => next_event_gone cfg fuel r name ps rest h hp) (r.files.length + 1) r name ps rest h h.rest_length

/-! ## Run headers -/

theorem next_run_here (cfg : RConfig) (fuel : Nat) (r : Reader) (name : Str) (ps : List Put) (rest : List (Str × List Put)) (h : At cfg r name ps rest)
    (pre : List Put) (p : Put) (ps' : List Put) (hps : ps = pre ++ p :: ps') (hpre : ∀ p ∈ pre, p.isEvent = true) (hd : RunHeader)
    (he : delivery cfg name p = some (.run hd)) :
    ∃ r', Reader.readNextRunLoop cfg (fuel + 1) r = (.ok (some hd), r') ∧ At cfg r' name ps' rest ∧ r'.files = r.files := by
  have he' : p.loadedRun name = some hd := by
    cases p with
    | run h' b => simpa [delivery] using he
    | event h' c b =>
      simp only [delivery] at he
      split at he <;> simp at he
  obtain ⟨pr, rs, h1, h2⟩ := h.stream
  obtain ⟨rs', mid, a1, a2, a3⟩ := scan_runs cfg name h2 pre p ps' hps hpre hd he' pr.length
  obtain ⟨s', buf', b1, -, b3⟩ := readRecords_at (fun st i => (st, i.name == runRecordName)) (runProcessor cfg (.ok name)) pr rs h2.ok r.buf none
  unfold Reader.readNextRunLoop
  rw [h.file, h1, b1, a1]
  refine ⟨_, rfl, ⟨⟨pr ++ fileOf mid, rs', ?_, a3⟩, h.file, h.files⟩, rfl⟩
  exact b3 mid rs' a2 (by rw [a1])

theorem next_run_gone (cfg : RConfig) (fuel : Nat) (r : Reader) (name : Str) (ps : List Put) (rest : List (Str × List Put)) (h : At cfg r name ps rest)
    (hp : ∀ p ∈ ps, p.isEvent = true) :
    ∃ r' : Reader, r'.files = r.files ∧ r'.index = r.index ∧ (∃ B p, r'.stream = failed B p) ∧ Reader.readNextRunLoop cfg (fuel + 1) r = goOn cfg (Reader.readNextRunLoop cfg fuel) r' := by
  obtain ⟨pre, rs, h1, h2⟩ := h.stream
  have a1 := scan_runs_none cfg (.ok name) h2 hp none pre.length
  obtain ⟨s', buf', b1, b2, -⟩ := readRecords_at (fun st i => (st, i.name == runRecordName)) (runProcessor cfg (.ok name)) pre rs h2.ok r.buf none
  refine ⟨{ r with stream := s', buf := buf' }, rfl, rfl, ⟨_, _, b2 (by rw [a1])⟩, ?_⟩
  conv => lhs; unfold Reader.readNextRunLoop
  rw [h.file, h1, b1, a1]
  unfold goOn
  simp only
  split
  · cases Reader.nextFile cfg { r with stream := s', buf := buf' } with
    | mk x r' =>
    cases x with
    | error e => rfl
    | ok u =>
      simp only
      cases Reader.readNextRunLoop cfg fuel r' with
      | mk z r'' => cases z with
        | error e => cases e <;> rfl
        | ok v => rfl
  · rfl

theorem next_run (cfg : RConfig) (r : Reader) (name : Str) (ps : List Put) (rest : List (Str × List Put)) (h : At cfg r name ps rest) :
    ((following name ps rest).dropWhile (fun x => !!x.2.isEvent) = [] → ∃ r', r.readNextRunHeader cfg = (.ok none, r') ∧ ∃ B p, r'.stream = failed B p) ∧
    ∀ x its e, (following name ps rest).dropWhile (fun x => !!x.2.isEvent) = x :: its → delivery cfg x.1 x.2 = some (.run e) →
      ∃ r' ps' rest', r.readNextRunHeader cfg = (.ok (some e), r') ∧ At cfg r' x.1 ps' rest' ∧ its = following x.1 ps' rest' ∧ r'.files = r.files :=
  next_loop cfg (fun p => !p.isEvent) (fun name p e => delivery cfg name p = some (.run e)) (Reader.readNextRunLoop cfg)
    (fun fuel r name ps rest h pre p ps' h1 h2 e h3 =>
      next_run_here cfg fuel r name ps rest h pre p ps' h1 (fun p hp => by simpa using h2 p hp) e h3)
    (fun fuel r name ps rest h hp => next_run_gone cfg fuel r name ps rest h (fun p hp' => by simpa using hp p hp'))
    (r.files.length + 1) r name ps rest h h.rest_length

/-! ## Mixed calls -/

theorem call_none (cfg : RConfig) (g : Get) (r : Reader) (name : Str) (ps : List Put) (rest : List (Str × List Put)) (h : At cfg r name ps rest)
    (hn : (following name ps rest).dropWhile (fun x => !g.wants x.2) = []) : ∃ r', g.call cfg r = (.ok none, r') ∧ ∃ B p, r'.stream = failed B p := by
  cases g with
  | event =>
    obtain ⟨r', h1, h2⟩ := (next_event cfg r name ps rest h).1 hn
    exact ⟨r', by simp [Get.call, h1], h2⟩
  | run =>
    obtain ⟨r', h1, h2⟩ := (next_run cfg r name ps rest h).1 hn
    exact ⟨r', by simp [Get.call, h1], h2⟩

theorem dropWhile_head {α : Type} (p : α → Bool) (l : List α) (x : α) (xs : List α) (h : l.dropWhile p = x :: xs) : p x = false ∧ ∃ pre, l = pre ++ x :: xs := by
  induction l with
  | nil => simp at h
  | cons y l ih =>
    cases hy : p y with
    | true =>
      rw [List.dropWhile_cons_of_pos hy] at h
      obtain ⟨h1, pre, h2⟩ := ih h
      exact ⟨h1, y :: pre, by rw [h2]; rfl⟩
    | false =>
      rw [List.dropWhile_cons_of_neg (by simp [hy]), List.cons.injEq] at h
      exact ⟨h.1 ▸ hy, [], by rw [h.1, h.2]; rfl⟩

theorem call_some (cfg : RConfig) (g : Get) (r : Reader) (name : Str) (ps : List Put) (rest : List (Str × List Put)) (h : At cfg r name ps rest)
    (x : Str × Put) (its : List (Str × Put)) (d : Delivery)
    (hn : (following name ps rest).dropWhile (fun x => !g.wants x.2) = x :: its) (hd : delivery cfg x.1 x.2 = some d) :
    ∃ r' ps' rest', g.call cfg r = (.ok (some d), r') ∧ At cfg r' x.1 ps' rest' ∧ its = following x.1 ps' rest' ∧ r'.files = r.files := by
  have hw := (dropWhile_head _ _ _ _ hn).1
  cases g with
  | event =>
    have : ∃ e, d = .event e := by
      obtain ⟨n, p⟩ := x
      cases p with
      | run h b => simp [Get.wants, Put.isEvent] at hw
      | event h c b =>
        simp only [delivery] at hd
        split at hd
        · simp at hd
        · simp only [Option.some.injEq] at hd; exact ⟨_, hd.symm⟩
    obtain ⟨e, rfl⟩ := this
    obtain ⟨r', ps', rest', h1, h2, h3, h4⟩ := (next_event cfg r name ps rest h).2 x its e hn hd
    exact ⟨r', ps', rest', by simp [Get.call, h1], h2, h3, h4⟩
  | run =>
    have : ∃ e, d = .run e := by
      obtain ⟨n, p⟩ := x
      cases p with
      | run h b =>
        simp only [delivery, Put.loadedRun, Option.map_some, Option.some.injEq] at hd
        exact ⟨_, hd.symm⟩
      | event h c b => simp [Get.wants, Put.isEvent] at hw
    obtain ⟨e, rfl⟩ := this
    obtain ⟨r', ps', rest', h1, h2, h3, h4⟩ := (next_run cfg r name ps rest h).2 x its e hn hd
    exact ⟨r', ps', rest', by simp [Get.call, h1], h2, h3, h4⟩

/-- Calls of a reader return what they should. -/
theorem gets_serve (cfg : RConfig) (gs : List Get) (r : Reader) (name : Str) (ps : List Put) (rest : List (Str × List Put)) (h : At cfg r name ps rest)
    (hl : ∀ x ∈ following name ps rest, delivery cfg x.1 x.2 ≠ none) : gets cfg gs r = .ok (serve cfg gs (following name ps rest)) := by
  induction gs generalizing r name ps rest with
  | nil => rfl
  | cons g gs ih =>
    unfold gets serve
    cases hd : (following name ps rest).dropWhile (fun x => !g.wants x.2) with
    | nil =>
      obtain ⟨r', h1, -⟩ := call_none cfg g r name ps rest h hd
      simp only [h1]
    | cons x its =>
      obtain ⟨hw, pre, hp⟩ := dropWhile_head _ _ _ _ hd
      cases hv : delivery cfg x.1 x.2 with
      | none => exact absurd hv (hl x (by rw [hp]; simp))
      | some d =>
        obtain ⟨r', ps', rest', h1, h2, h3, -⟩ := call_some cfg g r name ps rest h x its d hd hv
        have := ih r' x.1 ps' rest' h2 (fun y hy => hl y (by rw [hp, h3]; simp [hy]))
        simp only [h1, this, h3, hv]

theorem call_failed (cfg : RConfig) (g : Get) (r : Reader) (B : List Byte) (p : Nat) (h : r.stream = failed B p) : ∃ r', g.call cfg r = (.error .badState, r') := by
  have hi : ∀ buf, readRecordInfo (failed B p) buf = (.error .badState, failed B p, buf) := fun buf => rfl
  cases g with
  | event =>
    refine ⟨{ r with stream := failed B p }, ?_⟩
    simp only [Get.call, Reader.readNextEvent]
    unfold Reader.readNextEventLoop
    rw [h]
    unfold readRecords
    simp only [recordFuel, hi]
  | run =>
    refine ⟨{ r with stream := failed B p }, ?_⟩
    simp only [Get.call, Reader.readNextRunHeader]
    unfold Reader.readNextRunLoop
    rw [h]
    unfold readRecords
    simp only [recordFuel, hi]

/-- After null has been returned all calls throw. -/
theorem gets_after (cfg : RConfig) (gs : List Get) (r : Reader) (name : Str) (ps : List Put) (rest : List (Str × List Put)) (h : At cfg r name ps rest)
    (hl : ∀ x ∈ following name ps rest, delivery cfg x.1 x.2 ≠ none) (hn : none ∈ serve cfg gs (following name ps rest)) (g : Get) :
    (g.call cfg (afterGets cfg gs r)).1 = .error .badState := by
  induction gs generalizing r name ps rest with
  | nil => simp [serve] at hn
  | cons g' gs ih =>
    unfold afterGets
    unfold serve at hn
    cases hd : (following name ps rest).dropWhile (fun x => !g'.wants x.2) with
    | nil =>
      obtain ⟨r', h1, B, p, h2⟩ := call_none cfg g' r name ps rest h hd
      simp only [h1]
      obtain ⟨r'', h3⟩ := call_failed cfg g r' B p h2
      rw [h3]
    | cons x its =>
      rw [hd] at hn
      obtain ⟨hw, pre, hp⟩ := dropWhile_head _ _ _ _ hd
      cases hv : delivery cfg x.1 x.2 with
      | none => exact absurd hv (hl x (by rw [hp]; simp))
      | some d =>
        obtain ⟨r', ps', rest', h1, h2, h3, -⟩ := call_some cfg g' r name ps rest h x its d hd hv
        simp only [h1]
        refine ih r' x.1 ps' rest' h2 (fun y hy => hl y (by rw [hp, h3]; simp [hy])) ?_
        simp only [hv] at hn
        simpa [h3] using hn

/-- The reader after some calls none of which returned null. -/
theorem gets_at (cfg : RConfig) (gs : List Get) (r : Reader) (name : Str) (ps : List Put) (rest : List (Str × List Put)) (h : At cfg r name ps rest)
    (hl : ∀ x ∈ following name ps rest, delivery cfg x.1 x.2 ≠ none) (hn : none ∉ serve cfg gs (following name ps rest)) :
    ∃ name' ps' rest', At cfg (afterGets cfg gs r) name' ps' rest' ∧ following name' ps' rest' = remaining gs (following name ps rest) ∧
      (afterGets cfg gs r).files = r.files ∧ ∀ x ∈ following name' ps' rest', x ∈ following name ps rest := by
  induction gs generalizing r name ps rest with
  | nil => exact ⟨name, ps, rest, h, rfl, rfl, fun x hx => hx⟩
  | cons g' gs ih =>
    unfold afterGets remaining
    unfold serve at hn
    cases hd : (following name ps rest).dropWhile (fun x => !g'.wants x.2) with
    | nil => rw [hd] at hn; simp at hn
    | cons x its =>
      rw [hd] at hn
      obtain ⟨hw, pre, hp⟩ := dropWhile_head _ _ _ _ hd
      cases hv : delivery cfg x.1 x.2 with
      | none => exact absurd hv (hl x (by rw [hp]; simp))
      | some d =>
        obtain ⟨r', ps', rest', h1, h2, h3, h4⟩ := call_some cfg g' r name ps rest h x its d hd hv
        simp only [h1]
        simp only [List.mem_cons, not_or, h3] at hn
        obtain ⟨name2, ps2, rest2, a1, a2, a3, a4⟩ := ih r' x.1 ps' rest' h2 (fun y hy => hl y (by rw [hp, h3]; simp [hy])) hn.2
        exact ⟨name2, ps2, rest2, a1, by rw [a2, h3]; rfl, by rw [a3, h4], fun y hy => by rw [hp, h3]; have := a4 y hy; simp [this]⟩

theorem remaining_events (n : Nat) (its : List (Str × Put)) : remaining (List.replicate n .event) its = afterEvents n its := by
  have key : ∀ its : List (Str × Put), ∀ m, afterEvents (m + 1) its = afterEvents m (its.dropWhile fun x => !x.2.isEvent).tail := by
    intro its m
    induction its with
    | nil => cases m <;> rfl
    | cons x its ih =>
      cases hx : x.2.isEvent with
      | true => simp [afterEvents, hx]
      | false => simp [afterEvents, hx, ih]
  induction n generalizing its with
  | zero => simp [remaining, afterEvents]
  | succ n ih => rw [List.replicate_succ, remaining, ih, key]; rfl

theorem serve_events (cfg : RConfig) (n : Nat) (its : List (Str × Put)) (hl : ∀ x ∈ its, delivery cfg x.1 x.2 ≠ none) (hn : n ≤ countEvents its) :
    none ∉ serve cfg (List.replicate n .event) its := by
  induction n generalizing its with
  | zero => simp [serve]
  | succ n ih =>
    rw [List.replicate_succ, serve]
    have hc : countEvents its = countEvents (its.dropWhile fun x => !x.2.isEvent) := by
      clear hn hl
      induction its with
      | nil => rfl
      | cons x its ih =>
        cases hx : x.2.isEvent with
        | true => simp [hx]
        | false =>
          rw [List.dropWhile_cons_of_pos (by simp [hx]), ← ih]
          simp [countEvents, hx]
    simp only [Get.wants]
    cases hd : its.dropWhile (fun x => !x.2.isEvent) with
    | nil => rw [hc, hd] at hn; simp [countEvents] at hn
    | cons x rest =>
      obtain ⟨hw, pre, hp⟩ := dropWhile_head _ _ _ _ hd
      rw [hc, hd] at hn
      simp only [List.mem_cons, not_or]
      refine ⟨fun h => hl x (by rw [hp]; simp) h.symm, ih rest (fun y hy => hl y (by rw [hp]; simp [hy])) ?_⟩
      simp only [Bool.not_eq_false'] at hw
      simp only [countEvents, List.countP_cons, hw, if_true] at hn
      simp only [countEvents]; omega

/-! ## Skipping -/

def skipPred (n : Int) (c : Nat) (i : RecordInfo) : Nat × Bool :=
  let c' := if i.name = headerRecordName then c + 1 else c
  (c', decide ((c' : Int) < n))

def putEvents (ps : List Put) : Nat := ps.countP Put.isEvent

/-- Skipping up to the header of an event. -/
theorem scan_headers (codec : Codec) (std : Std Pid) (n : Int) {ps : List Put} {rs : List Rec} (h : Layout codec std ps rs) (c : Nat) (hc : (c : Int) < n) (q : Nat) :
    ((c + putEvents ps : Int) < n → ∃ c', scan (fun s _ => (s, true)) (fun s i _ => ((skipPred n s i).1, .ok (skipPred n s i).2)) c q rs = (c', .error .eof, none)) ∧
    (∀ m : Nat, (c + m : Int) = n → m ≤ putEvents ps → ∃ c' mid r' rs',
      scan (fun s _ => (s, true)) (fun s i _ => ((skipPred n s i).1, .ok (skipPred n s i).2)) c q rs = (c', .ok (), some (r' :: rs')) ∧ rs = mid ++ r' :: rs' ∧
      ∀ name, ∃ ps', Layout codec std ps' rs' ∧ ps'.map (fun p => (name, p)) = afterEvents m (ps.map fun p => (name, p))) := by
  have other : ∀ (r : Rec) (q c : Nat), r.name ≠ headerRecordName → (c : Int) < n → skipPred n c (r.info q) = (c, true) := by
    intro r q c hr hc
    have : (r.info q).name = r.name := rfl
    simp [skipPred, this, hr, hc]
  have ours : ∀ (r : Rec) (q c : Nat), r.name = headerRecordName → skipPred n c (r.info q) = (c + 1, decide ((c + 1 : Int) < n)) := by
    intro r q c hr
    have : (r.info q).name = r.name := rfl
    simp [skipPred, this, hr]
  induction h generalizing c q with
  | nil =>
    refine ⟨fun _ => ⟨c, rfl⟩, ?_⟩
    intro m hm hl
    simp [putEvents] at hl
    omega
  | other r ps rs hr h1 h2 h3 h ih =>
    obtain ⟨i1, i2⟩ := ih c hc (q + r.wire.length)
    rw [scan_cons]
    simp only [other r q c h2 hc]
    refine ⟨i1, ?_⟩
    intro m hm hl
    obtain ⟨c', mid, r', rs', a1, a2, a3⟩ := i2 m hm hl
    exact ⟨c', r :: mid, r', rs', a1, by rw [a2]; rfl, a3⟩
  | put p g ps rs hg h ih =>
    cases p with
    | run hd buf =>
      obtain ⟨r, rfl, hr, -⟩ := hg
      obtain ⟨i1, i2⟩ := ih c hc (q + r.wire.length)
      simp only [List.cons_append, List.nil_append]
      rw [scan_cons]
      simp only [other r q c (by rw [hr.named]; decide) hc]
      have e : putEvents (.run hd buf :: ps) = putEvents ps := by simp [putEvents, Put.isEvent]
      rw [e]
      refine ⟨i1, ?_⟩
      intro m hm hl
      obtain ⟨c', mid, r', rs', a1, a2, a3⟩ := i2 m hm hl
      refine ⟨c', r :: mid, r', rs', a1, by rw [a2]; rfl, ?_⟩
      intro name
      obtain ⟨ps', b1, b2⟩ := a3 name
      refine ⟨ps', b1, ?_⟩
      rw [b2]
      cases m with
      | zero => omega
      | succ m => simp [afterEvents, Put.isEvent]
    | event hd cols buf =>
      obtain ⟨r, r', rfl, hr, hr'⟩ := hg
      simp only [List.cons_append, List.nil_append]
      rw [scan_cons]
      simp only [ours r q c hr.named]
      have e : putEvents (.event hd cols buf :: ps) = putEvents ps + 1 := List.countP_cons_of_pos rfl
      rw [e]
      by_cases hm1 : (c + 1 : Int) < n
      · simp only [decide_eq_true hm1]
        obtain ⟨i1, i2⟩ := ih (c + 1) (by push_cast; exact hm1) (q + r.wire.length + r'.wire.length)
        rw [scan_cons]
        simp only [other r' _ (c + 1) (by rw [hr'.named]; decide) (by push_cast; exact hm1)]
        refine ⟨fun hx => i1 (by push_cast at hx ⊢; omega), ?_⟩
        intro m hm hl
        cases m with
        | zero => omega
        | succ m =>
          obtain ⟨c', mid, r2, rs', a1, a2, a3⟩ := i2 m (by push_cast at hm ⊢; omega) (by omega)
          refine ⟨c', r :: r' :: mid, r2, rs', a1, by rw [a2]; rfl, ?_⟩
          intro name
          obtain ⟨ps', b1, b2⟩ := a3 name
          exact ⟨ps', b1, by rw [b2]; simp [afterEvents, Put.isEvent]⟩
      · simp only [decide_eq_false hm1]
        refine ⟨fun hx => by push_cast at hx; omega, ?_⟩
        intro m hm hl
        have : m = 1 := by omega
        subst this
        refine ⟨c + 1, [r], r', rs, rfl, rfl, fun name => ⟨ps, h, by simp [afterEvents, Put.isEvent]⟩⟩

theorem skipRecords_at {σ : Type} (pred : σ → RecordInfo → σ × Bool) (pre : List Byte) (rs : List Rec) (hr : ∀ r ∈ rs, r.Ok) (st : σ) :
    ∃ s', skipRecords pred (recordFuel (ready (pre ++ fileOf rs) pre.length)) st (ready (pre ++ fileOf rs) pre.length) =
        ((scan (fun s _ => (s, true)) (fun s i _ => ((pred s i).1, .ok (pred s i).2)) st pre.length rs).1,
         (scan (fun s _ => (s, true)) (fun s i _ => ((pred s i).1, .ok (pred s i).2)) st pre.length rs).2.1, s') ∧
      ((scan (fun s _ => (s, true)) (fun s i _ => ((pred s i).1, .ok (pred s i).2)) st pre.length rs).2.2 = none →
        s' = failed (pre ++ fileOf rs) (pre ++ fileOf rs).length) ∧
      ∀ mid rs', rs = mid ++ rs' → (scan (fun s _ => (s, true)) (fun s i _ => ((pred s i).1, .ok (pred s i).2)) st pre.length rs).2.2 = some rs' →
        s' = ready ((pre ++ fileOf mid) ++ fileOf rs') (pre ++ fileOf mid).length := by
  obtain ⟨s', h1, h2⟩ := skipRecordsLoop_scan pred rs hr pre (zeros maxRecordInfoLen) st (recordFuel (ready (pre ++ fileOf rs) pre.length))
    (by have := fileOf_length rs; simp only [recordFuel, List.length_append]; omega) pre.length rfl
  refine ⟨s', h1, ?_, ?_⟩
  · intro h; rw [h] at h2; exact h2
  · intro mid rs' hm h
    rw [h] at h2
    rw [h2]
    subst hm
    simp only [fileOf_append, List.append_assoc, List.length_append]
    congr 1
    omega

/-- `skipNEvents` when there are enough events in the file. -/
theorem skip_at (cfg : RConfig) (r : Reader) (name : Str) (ps : List Put) (rest : List (Str × List Put)) (h : At cfg r name ps rest) (n : Nat) (hn : n ≤ putEvents ps) :
    ∃ r' ps', r.skipNEvents n = (.ok (), r') ∧ At cfg r' name ps' rest ∧ ps'.map (fun p => (name, p)) = afterEvents n (ps.map fun p => (name, p)) := by
  unfold Reader.skipNEvents
  cases n with
  | zero => exact ⟨r, ps, rfl, h, by simp [afterEvents]⟩
  | succ n =>
    rw [if_neg (by push_cast; omega)]
    obtain ⟨pr, rs, h1, h2⟩ := h.stream
    obtain ⟨-, a2⟩ := scan_headers cfg.codec cfg.std ((n + 1 : Nat) : Int) h2 0 (by push_cast; omega) pr.length
    obtain ⟨c', mid, r1, rs', b1, b2, b3⟩ := a2 (n + 1) (by push_cast; omega) hn
    obtain ⟨s', c1, -, c3⟩ := skipRecords_at (skipPred ((n + 1 : Nat) : Int)) pr rs h2.ok 0
    have hs := c3 mid (r1 :: rs') b2 (by rw [b1])
    rw [b1] at c1
    have hpred : (fun (c : Nat) (i : RecordInfo) => let c' := if i.name = headerRecordName then c + 1 else c; (c', decide ((c' : Int) < ((n + 1 : Nat) : Int)))) =
      skipPred ((n + 1 : Nat) : Int) := rfl
    simp only [hpred, h1, c1]
    have hok : ∀ x ∈ r1 :: rs', x.Ok := fun x hx => h2.ok x (by rw [b2]; exact List.mem_append_right _ hx)
    obtain ⟨s2, d1, -, d3⟩ := skipRecords_at (fun (c : Nat) (_ : RecordInfo) => (c + 1, decide (c + 1 < 1))) (pr ++ fileOf mid) (r1 :: rs') hok 0
    have hsc : scan (fun s _ => (s, true)) (fun s i (_ : List Byte) => (((fun (c : Nat) (_ : RecordInfo) => (c + 1, decide (c + 1 < 1))) s i).1, Except.ok (((fun (c : Nat) (_ : RecordInfo) => (c + 1, decide (c + 1 < 1))) s i).2))) 0
        (pr ++ fileOf mid).length (r1 :: rs') = (1, .ok (), some rs') := by
      rw [scan_cons]
      rfl
    rw [hsc] at d1
    obtain ⟨ps', e1, e2⟩ := b3 name
    have h3 := d3 [r1] rs' rfl (by rw [hsc])
    rw [hs, skipNRecords, d1]
    exact ⟨_, ps', rfl, ⟨⟨(pr ++ fileOf mid) ++ fileOf [r1], rs', h3, e1⟩, h.file, h.files⟩, e2⟩

/-- `skipNEvents` when there are not enough events in the file. -/
theorem skip_end (cfg : RConfig) (r : Reader) (name : Str) (ps : List Put) (rest : List (Str × List Put)) (h : At cfg r name ps rest) (n : Nat) (hn : putEvents ps < n) :
    ∃ r', r.skipNEvents n = (.ok (), r') ∧ ∃ B p, r'.stream = failed B p := by
  unfold Reader.skipNEvents
  rw [if_neg (by omega)]
  obtain ⟨pr, rs, h1, h2⟩ := h.stream
  obtain ⟨a1, -⟩ := scan_headers cfg.codec cfg.std (n : Int) h2 0 (by push_cast; omega) pr.length
  obtain ⟨c', b1⟩ := a1 (by push_cast; omega)
  obtain ⟨s', c1, c2, -⟩ := skipRecords_at (skipPred (n : Int)) pr rs h2.ok 0
  rw [b1] at c1
  have hpred : (fun (c : Nat) (i : RecordInfo) => let c' := if i.name = headerRecordName then c + 1 else c; (c', decide ((c' : Int) < (n : Int)))) = skipPred (n : Int) := rfl
  simp only [hpred, h1, c1]
  exact ⟨_, rfl, _, _, c2 (by rw [b1])⟩

/-- A new reader is at the beginning of its files. -/
theorem openFiles_at (cfg : RConfig) (f : Str × List Byte) (files : List (Str × List Byte)) (c : Str × List Put) (cs : List (Str × List Put))
    (h : All2 (fun f q => f.1 = q.1 ∧ FileHolds cfg.codec cfg.std f.2 q.2) (f :: files) (c :: cs)) :
    ∃ r, Reader.openFiles cfg false (f :: files) = (.ok (), r) ∧ At cfg r c.1 c.2 cs := by
  obtain ⟨b, rest', e1, ⟨e0, e2⟩, e3⟩ := h.cons_inv
  simp only [List.cons.injEq] at e1
  obtain ⟨rfl, rfl⟩ := e1
  obtain ⟨rs, h1, h2⟩ := e2
  refine ⟨{ files := f :: files, stream := { bytes := f.2 }, readMap := false }, rfl, ⟨⟨[], rs, ?_, h2⟩, ?_, e3⟩⟩
  · simp only [h1, List.nil_append]; rfl
  · simp [Reader.fileName, e0]

end Lcio
