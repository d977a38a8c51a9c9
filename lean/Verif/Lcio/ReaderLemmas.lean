import Verif.Lcio.History
/-
Reading a file that was written by a writer.
-/
namespace Lcio
open Sio Spec

/-! ## What is in a file -/

/-- Records that hold things that were written, with other records between them. -/
inductive Layout (codec : Codec) (std : Std Pid) : List Put → List Rec → Prop
  | nil : Layout codec std [] []
  | other (r : Rec) (ps : List Put) (rs : List Rec) (hr : r.Ok) (h1 : r.name ≠ runRecordName) (h2 : r.name ≠ headerRecordName) (h3 : r.name ≠ eventRecordName)
      (h : Layout codec std ps rs) : Layout codec std ps (r :: rs)
  | put (p : Put) (g : List Rec) (ps : List Put) (rs : List Rec) (hp : Holds codec std p g) (h : Layout codec std ps rs) : Layout codec std (p :: ps) (g ++ rs)

variable {codec : Codec} {std : Std Pid}

theorem Layout.ok {ps : List Put} {rs : List Rec} (h : Layout codec std ps rs) : ∀ r ∈ rs, r.Ok := by
  induction h with
  | nil => simp
  | other r ps rs hr _ _ _ h ih =>
    intro x hx
    rcases List.mem_cons.1 hx with rfl | hx
    · exact hr
    · exact ih x hx
  | put p g ps rs hp h ih =>
    intro x hx
    rcases List.mem_append.1 hx with hx | hx
    · exact (holds_length codec std p g hp).2 x hx
    · exact ih x hx

theorem layout_groups {ps : List Put} {gs : List (List Rec)} (h : All2 (Holds codec std) ps gs) {qs : List Put} {rs : List Rec} (h' : Layout codec std qs rs) :
    Layout codec std (ps ++ qs) (gs.flatten ++ rs) := by
  induction ps generalizing gs with
  | nil => cases h.nil_inv; simpa using h'
  | cons p ps ih =>
    obtain ⟨g, gs', rfl, h1, h2⟩ := h.cons_inv
    rw [List.flatten_cons, List.append_assoc]
    exact .put p g _ _ h1 (ih h2)

theorem index_other {r : Rec} {m : RunEventMap} (h : IsIndex r m) : r.name ≠ runRecordName ∧ r.name ≠ headerRecordName ∧ r.name ≠ eventRecordName := by
  rw [h.named]; decide
theorem access_other {r : Rec} {a : RandomAccess} (h : IsAccess r a) : r.name ≠ runRecordName ∧ r.name ≠ headerRecordName ∧ r.name ≠ eventRecordName := by
  rw [h.named]; decide

theorem layout_history {cs : List Chunk} {last f : Option RandomAccess} (h : History codec std cs last f) {qs : List Put} {rs : List Rec}
    (h' : Layout codec std qs rs) : Layout codec std (cs.flatMap Chunk.puts ++ qs) (recsOf cs ++ rs) := by
  induction h generalizing qs rs with
  | nil => simpa [recsOf] using h'
  | snoc cs last f c h hc ih =>
    have h1 := index_other hc.ix
    have h2 := access_other hc.acc
    have := ih (layout_groups hc.puts (.other c.ix _ _ hc.ix.ok h1.1 h1.2.1 h1.2.2 (.other c.acc _ _ hc.acc.ok h2.1 h2.2.1 h2.2.2 h')))
    rw [recsOf_snoc]
    simpa [Chunk.recs] using this

theorem content_layout {cs : List Chunk} {last f : Option RandomAccess} {bytes : List Byte} (h : Content codec std cs last f (some bytes)) :
    ∃ rs, bytes = fileOf rs ∧ Layout codec std (cs.flatMap Chunk.puts) rs := by
  cases h with
  | some h a ha r hr =>
    have h2 := access_other hr
    have := layout_history h (.other r [] [] hr.ok h2.1 h2.2.1 h2.2.2 .nil)
    exact ⟨recsOf cs ++ [r], by simp [fileOf_append, fileOf_cons, fileOf_nil], by simpa using this⟩

/-! ## Decoding -/

theorem readEvent_parts (cfg : RConfig) (d1 d2 : List Byte) (e : EventData) (h : readEvent cfg.std cfg.ignoreNull cfg.wanted d1 d2 1 = .ok e) :
    ∃ hdr cols, decodeHeader cfg d1 = .ok hdr ∧ decodeCollections cfg hdr d2 = .ok cols ∧ finishEvent cfg (hdr, cols) = .ok e := by
  have key : ∀ hdr : EventHeader, (match readBlocks d2 (eventDecoders cfg.std hdr.cols) with
      | .error e => .error e
      | .ok (results, ρ, _) =>
        match postProcess cfg.ignoreNull (filledCols hdr.cols (results.map fun c => (c.1, c.2.mapPtr ρ))) with
        | .error e => .error e
        | .ok cols => .ok (hdr, cols)) = Except.ok e →
      ∃ cols, decodeCollections cfg hdr d2 = .ok cols ∧ finishEvent cfg (hdr, cols) = .ok e := by
    intro hdr h
    unfold decodeCollections finishEvent
    cases h2 : readBlocks d2 (eventDecoders cfg.std hdr.cols) with
    | error x => rw [h2] at h; cases h
    | ok x =>
      obtain ⟨results, ρ, z'⟩ := x
      rw [h2] at h
      simp only at h
      refine ⟨_, rfl, ?_⟩
      simp only
      cases h3 : postProcess cfg.ignoreNull (filledCols hdr.cols (results.map fun c => (c.1, c.2.mapPtr ρ))) with
      | error x => rw [h3] at h; cases h
      | ok x => rw [h3] at h; exact h
  unfold readEvent at h
  unfold decodeHeader
  cases h1 : readBlocks d1 [headerDecoder cfg.wanted] with
  | error x => rw [h1] at h; cases h
  | ok x =>
    obtain ⟨hs, y, z⟩ := x
    rw [h1] at h
    simp only at h
    rcases hs with _ | ⟨⟨n, hd⟩, tl⟩
    · obtain ⟨cols, a, b⟩ := key _ h
      exact ⟨_, cols, rfl, a, b⟩
    · obtain ⟨cols, a, b⟩ := key _ h
      exact ⟨_, cols, rfl, a, b⟩

/-- The records of an event that can be loaded. -/
structure EventRecs (cfg : RConfig) (r r' : Rec) (e : EventData) : Prop where
  ok : r.Ok
  ok' : r'.Ok
  name : r.name = headerRecordName
  name' : r'.name = eventRecordName
  read : ∃ d1 d2 hdr cols, plainOf cfg.codec r = .ok d1 ∧ plainOf cfg.codec r' = .ok d2 ∧ decodeHeader cfg d1 = .ok hdr ∧
    decodeCollections cfg hdr d2 = .ok cols ∧ finishEvent cfg (hdr, cols) = .ok e

theorem holds_event (cfg : RConfig) (h : EventHeader) (cols : List (Str × Collection)) (buf : Str × Str) (g : List Rec) (e : EventData)
    (hg : Holds cfg.codec cfg.std (.event h cols buf) g) (file : Str) (he : delivery cfg file (.event h cols buf) = some (.event e)) :
    ∃ r r', g = [r, r'] ∧ EventRecs cfg r r' e := by
  obtain ⟨r, r', rfl, h1, h2⟩ := hg
  refine ⟨r, r', rfl, h1.ok, h2.ok, h1.named, h2.named, ?_⟩
  obtain ⟨i1, b1, w1, p1⟩ := h1.plain
  obtain ⟨i2, b2, w2, p2⟩ := h2.plain
  have he' : storeLoadEvent cfg.std cfg.ignoreNull [] cfg.wanted buf 0 1 h cols = .ok e := by
    simp only [delivery] at he
    cases hs : storeLoadEvent cfg.std cfg.ignoreNull [] cfg.wanted buf 0 1 h cols with
    | error x => rw [hs] at he; cases he
    | ok x => rw [hs] at he; cases he; rfl
  unfold storeLoadEvent writeEvent at he'
  rw [w1] at he'
  simp only at he'
  rw [w2] at he'
  simp only at he'
  obtain ⟨hdr, cs, e1, e2, e3⟩ := readEvent_parts cfg _ _ e he'
  exact ⟨_, _, hdr, cs, p1, p2, e1, e2, e3⟩

/-! ## Scanning -/

theorem scan_cons {σ : Type} (valid : σ → RecordInfo → σ × Bool) (func : σ → RecordInfo → List Byte → σ × Except Err Bool) (r : Rec) (rs : List Rec) (st : σ) (p : Nat) :
    scan valid func st p (r :: rs) = match valid st (r.info p) with
    | (st, false) => scan valid func st (p + r.wire.length) rs
    | (st, true) => match func st (r.info p) r.data with
      | (st, .error e) => (st, .error e, some rs)
      | (st, .ok true) => scan valid func st (p + r.wire.length) rs
      | (st, .ok false) => (st, .ok (), some rs) := rfl

/-- Scanning records and then more records. -/
theorem scan_append {σ : Type} (valid : σ → RecordInfo → σ × Bool) (func : σ → RecordInfo → List Byte → σ × Except Err Bool) (a b : List Rec) (st : σ) (p : Nat) :
    scan valid func st p (a ++ b) =
      match (scan valid func st p a).2.2 with
      | none => scan valid func (scan valid func st p a).1 (p + (fileOf a).length) b
      | some rem => ((scan valid func st p a).1, (scan valid func st p a).2.1, some (rem ++ b)) := by
  induction a generalizing st p with
  | nil => simp [scan, fileOf_nil]
  | cons r a ih =>
    simp only [List.cons_append, scan_cons]
    cases valid st (r.info p) with
    | mk st1 v =>
    cases v with
    | false => simp only [ih, fileOf_cons, List.length_append, Nat.add_assoc]
    | true =>
      simp only
      cases func st1 (r.info p) r.data with
      | mk st2 res =>
      cases res with
      | error e => rfl
      | ok c =>
        cases c with
        | false => rfl
        | true => simp only [ih, fileOf_cons, List.length_append, Nat.add_assoc]

theorem scan_skip {σ : Type} (valid : σ → RecordInfo → σ × Bool) (func : σ → RecordInfo → List Byte → σ × Except Err Bool) (r : Rec) (rs : List Rec) (st : σ) (p : Nat)
    (h : valid st (r.info p) = (st, false)) : scan valid func st p (r :: rs) = scan valid func st (p + r.wire.length) rs := by
  conv => lhs; unfold scan
  rw [h]

theorem recordNames : headerRecordName ≠ runRecordName ∧ eventRecordName ≠ runRecordName ∧ headerRecordName ≠ eventRecordName ∧
    runRecordName ≠ headerRecordName ∧ runRecordName ≠ eventRecordName ∧ eventRecordName ≠ headerRecordName := by decide

/-- The records of an event, for `readNextEvent`. -/
theorem scan_event (cfg : RConfig) (r r' : Rec) (e : EventData) (h : EventRecs cfg r r' e) (st : EventState) (p : Nat) (rs : List Rec) :
    ∃ st' e0, scan (fun st i => (st, isEventRecord i)) (eventProcessor cfg) st p (r :: r' :: rs) = (st', .ok (), some rs) ∧
      st'.evt = some e0 ∧ finishEvent cfg e0 = .ok e := by
  obtain ⟨d1, d2, hdr, cols, h1, h2, h3, h4, h5⟩ := h.read
  refine ⟨{ hdr := some hdr, evt := some (hdr, cols) }, (hdr, cols), ?_, rfl, h5⟩
  · rw [scan_cons]
    have v1 : isEventRecord (r.info p) = true := by simp [isEventRecord, Rec.info, h.name]
    rw [v1]
    have p1 : eventProcessor cfg st (r.info p) r.data = ({ hdr := some hdr }, .ok true) := by
      unfold eventProcessor
      rw [plainData_rec, h1]
      simp only
      rw [if_pos (by exact h.name), h3]
    simp only [p1]
    rw [scan_cons]
    have v2 : isEventRecord (r'.info (p + r.wire.length)) = true := by simp [isEventRecord, Rec.info, h.name']
    rw [v2]
    have p2 : eventProcessor cfg { hdr := some hdr } (r'.info (p + r.wire.length)) r'.data = ({ hdr := some hdr, evt := some (hdr, cols) }, .ok false) := by
      unfold eventProcessor
      rw [plainData_rec, h2]
      simp only
      rw [if_neg (by show ¬ r'.name = _; rw [h.name']; decide), if_pos (by exact h.name'), h4]
    simp only [p2]

theorem scan_notEvent (cfg : RConfig) (codec : Codec) (std : Std Pid) (p : Put) (hp : p.isEvent = false) (g rs : List Rec) (hg : Holds codec std p g) (st : EventState) (q : Nat) :
    scan (fun st i => (st, isEventRecord i)) (eventProcessor cfg) st q (g ++ rs) =
      scan (fun st i => (st, isEventRecord i)) (eventProcessor cfg) st (q + (fileOf g).length) rs := by
  cases p with
  | event h cols buf => simp [Put.isEvent] at hp
  | run h buf =>
    obtain ⟨r, rfl, hr, -⟩ := hg
    simp only [List.cons_append, List.nil_append]
    rw [scan_skip]
    · simp [fileOf_cons, fileOf_nil]
    · simp only [isEventRecord, Rec.info, hr.named, Prod.mk.injEq, true_and]
      decide

theorem isEventRecord_other (r : Rec) (p : Nat) (h2 : r.name ≠ headerRecordName) (h3 : r.name ≠ eventRecordName) : isEventRecord (r.info p) = false := by
  simp [isEventRecord, Rec.info, h2, h3]

/-- No event is left. -/
theorem scan_events_none (cfg : RConfig) {ps : List Put} {rs : List Rec} (h : Layout codec std ps rs) (hp : ∀ p ∈ ps, p.isEvent = false) (st : EventState) (q : Nat) :
    scan (fun st i => (st, isEventRecord i)) (eventProcessor cfg) st q rs = (st, .error .eof, none) := by
  induction h generalizing q with
  | nil => rfl
  | other r ps rs hr h1 h2 h3 h ih =>
    rw [scan_skip]
    · exact ih hp _
    · rw [isEventRecord_other r q h2 h3]
  | put p g ps rs hg h ih =>
    rw [scan_notEvent cfg codec std p (hp p (by simp)) g rs hg]
    exact ih (fun x hx => hp x (by simp [hx])) _

/-- The next event. -/
theorem scan_events (cfg : RConfig) {ps : List Put} {rs : List Rec} (h : Layout cfg.codec cfg.std ps rs) (runs : List Put) (p : Put) (ps' : List Put)
    (hps : ps = runs ++ p :: ps') (hruns : ∀ p ∈ runs, p.isEvent = false) (e : EventData) (file : Str) (he : delivery cfg file p = some (.event e)) (q : Nat) :
    ∃ st' rs' mid e0, scan (fun st i => (st, isEventRecord i)) (eventProcessor cfg) {} q rs = (st', .ok (), some rs') ∧ rs = mid ++ rs' ∧
      Layout cfg.codec cfg.std ps' rs' ∧ st'.evt = some e0 ∧ finishEvent cfg e0 = .ok e := by
  induction h generalizing q runs with
  | nil => simp at hps
  | other r ps rs hr h1 h2 h3 h ih =>
    obtain ⟨st', rs', mid, e0, a1, a2, a3⟩ := ih runs hps hruns (q + r.wire.length)
    refine ⟨st', rs', r :: mid, e0, ?_, by rw [a2]; rfl, a3⟩
    rw [scan_skip]
    · exact a1
    · rw [isEventRecord_other r q h2 h3]
  | put p' g ps rs hg h ih =>
    cases runs with
    | cons x runs =>
      simp only [List.cons_append, List.cons.injEq] at hps
      obtain ⟨rfl, rfl⟩ := hps
      obtain ⟨st', rs', mid, e0, a1, a2, a3⟩ := ih runs rfl (fun x hx => hruns x (by simp [hx])) (q + (fileOf g).length)
      refine ⟨st', rs', g ++ mid, e0, ?_, by rw [a2]; simp, a3⟩
      rw [scan_notEvent cfg cfg.codec cfg.std p' (hruns p' (by simp)) g rs hg]
      exact a1
    | nil =>
      simp only [List.nil_append, List.cons.injEq] at hps
      obtain ⟨rfl, rfl⟩ := hps
      cases p' with
      | run hd buf => simp [delivery, Put.loadedRun] at he
      | event hd cols buf =>
        obtain ⟨r, r', rfl, hrec⟩ := holds_event cfg hd cols buf g e hg file he
        obtain ⟨st', e0, a1, a2, a3⟩ := scan_event cfg r r' e hrec {} q rs
        exact ⟨st', rs, [r, r'], e0, a1, rfl, h, a2, a3⟩

/-! ## Run headers -/

theorem omAssign_assign {K V : Type} {lt : K → K → Bool} (h : StrictWeak lt) (k : K) (a b : V) (m : List (K × V)) :
    (omAssign lt k b (omAssign lt k a m).1).1 = (omAssign lt k b m).1 := by
  induction m with
  | nil => simp [omAssign, h.irrefl]
  | cons e m ih =>
    obtain ⟨k', v'⟩ := e
    by_cases h1 : lt k k' = true
    · simp [omAssign, h1, h.irrefl]
    · by_cases h2 : lt k' k = true
      · simp [omAssign, h1, h2, ih]
      · simp [omAssign, h1, h2]

theorem assignVal_eq {α : Type} (m : VecMap α) (key : Str) (v : α) : assignVal m key v = (omAssign strLt key [v] m).1 := by
  unfold assignVal
  simp only
  have h1 : omFind strLt key (omAssign strLt key [] m).1 = some [] := by
    rw [omFind_assign strWeak, if_pos (eqv_refl strWeak key)]
  rw [h1]
  exact omAssign_assign strWeak key _ _ m

theorem holds_run (cfg : RConfig) (std : Std Pid) (h : RunHeader) (buf : Str) (g : List Rec) (hg : Holds cfg.codec std (.run h buf) g) (file : Str) :
    ∃ r, g = [r] ∧ r.Ok ∧ r.name = runRecordName ∧ ∀ p, ∃ h', Put.loadedRun file (.run h buf) = some h' ∧ decodeRun cfg file (r.info p) r.data = .ok h' := by
  obtain ⟨r, rfl, h1, h2, h3⟩ := hg
  refine ⟨r, rfl, h1.ok, h1.named, fun p => ⟨_, rfl, ?_⟩⟩
  obtain ⟨info, bytes, w, pl⟩ := h1.plain
  unfold decodeRun
  rw [plainData_rec, pl]
  simp only
  have hs : storeLoad runRecordName buf 0 [h.block] [runDecoder] 1 = .ok [(runBlockName, { h with params := { h.params with readOnly := false } })] := by
    apply storeLoad_plain runRecordName buf 0 h.block runDecoder 1 _ rfl h3
    intro φ n
    have := runI_runHeader φ h h2 [] n []
    rw [List.append_nil] at this
    exact this
  obtain ⟨ρ, d, e⟩ := storeLoad_inv hs w
  rw [e]
  simp only [List.getLast?_singleton, Option.map_some, Option.getD_some]
  unfold Params.setStr Params.checked
  simp only [Bool.false_eq_true, if_false, assignVal_eq]

theorem scan_runs_none (cfg : RConfig) (file : Except Err Str) {ps : List Put} {rs : List Rec} (h : Layout codec std ps rs) (hp : ∀ p ∈ ps, p.isEvent = true)
    (st : Option RunHeader) (q : Nat) :
    scan (fun st i => (st, i.name == runRecordName)) (runProcessor cfg file) st q rs = (st, .error .eof, none) := by
  induction h generalizing q with
  | nil => rfl
  | other r ps rs hr h1 h2 h3 h ih =>
    rw [scan_skip]
    · exact ih hp _
    · simp [Rec.info, h1]
  | put p g ps rs hg h ih =>
    have hpe := hp p (by simp)
    cases p with
    | run hd buf => simp [Put.isEvent] at hpe
    | event hd cols buf =>
      obtain ⟨r, r', rfl, a, b⟩ := hg
      simp only [List.cons_append, List.nil_append]
      rw [scan_skip, scan_skip]
      · exact ih (fun x hx => hp x (by simp [hx])) _
      · simp [Rec.info, b.named]; decide
      · simp [Rec.info, a.named]; decide

theorem scan_runs (cfg : RConfig) (file : Str) {ps : List Put} {rs : List Rec} (h : Layout cfg.codec std ps rs) (evs : List Put) (p : Put) (ps' : List Put)
    (hps : ps = evs ++ p :: ps') (hevs : ∀ p ∈ evs, p.isEvent = true) (hd : RunHeader) (he : p.loadedRun file = some hd) (q : Nat) :
    ∃ rs' mid, scan (fun st i => (st, i.name == runRecordName)) (runProcessor cfg (.ok file)) none q rs = (some hd, .ok (), some rs') ∧ rs = mid ++ rs' ∧
      Layout cfg.codec std ps' rs' := by
  induction h generalizing q evs with
  | nil => simp at hps
  | other r ps rs hr h1 h2 h3 h ih =>
    obtain ⟨rs', mid, a1, a2, a3⟩ := ih evs hps hevs (q + r.wire.length)
    refine ⟨rs', r :: mid, ?_, by rw [a2]; rfl, a3⟩
    rw [scan_skip]
    · exact a1
    · simp [Rec.info, h1]
  | put p' g ps rs hg h ih =>
    cases evs with
    | cons x evs =>
      simp only [List.cons_append, List.cons.injEq] at hps
      obtain ⟨rfl, rfl⟩ := hps
      obtain ⟨rs', mid, a1, a2, a3⟩ := ih evs rfl (fun x hx => hevs x (by simp [hx])) (q + (fileOf g).length)
      refine ⟨rs', g ++ mid, ?_, by rw [a2]; simp, a3⟩
      have hpe := hevs p' (by simp)
      cases p' with
      | run hd buf => simp [Put.isEvent] at hpe
      | event hd cols buf =>
        obtain ⟨r, r', rfl, a, b⟩ := hg
        simp only [List.cons_append, List.nil_append]
        rw [scan_skip, scan_skip]
        · simpa [fileOf_cons, fileOf_nil, Nat.add_assoc] using a1
        · simp [Rec.info, b.named]; decide
        · simp [Rec.info, a.named]; decide
    | nil =>
      simp only [List.nil_append, List.cons.injEq] at hps
      obtain ⟨rfl, rfl⟩ := hps
      cases p' with
      | event hd cols buf => simp [Put.loadedRun] at he
      | run hd0 buf =>
        obtain ⟨r, rfl, r1, r2, r3⟩ := holds_run cfg std hd0 buf g hg file
        obtain ⟨h', e1, e2⟩ := r3 q
        rw [e1, Option.some.injEq] at he
        subst he
        refine ⟨rs, [r], ?_, rfl, h⟩
        simp only [List.cons_append, List.nil_append]
        rw [scan_cons]
        have v : (r.info q).name == runRecordName := by simp [Rec.info, r2]
        rw [v]
        simp only [runProcessor, e2]

end Lcio
