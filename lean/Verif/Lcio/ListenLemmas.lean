import Verif.Lcio.CursorLemmas
/-
Reading with listeners.
-/
namespace Lcio
open Sio Spec

/-- Nothing changes if the events are processed once more. -/
def Settled (cfg : RConfig) (k : Nat) (p : Put) : Prop := k ≤ 1 ∨ ∀ file e, delivery cfg file p = some (.event e) → finishEvent cfg e = .ok e

theorem deliver_eq (cfg : RConfig) (e : EventData) (n : Nat) : ∀ (i : Nat) (log : List (Nat × Delivery)) (e0 : EventData), finishEvent cfg e0 = .ok e →
    (n ≤ 1 ∨ finishEvent cfg e = .ok e) → deliver cfg log i n e0 = (log ++ (List.range' i n).map (fun i => (i, .event e)), .ok ()) := by
  induction n with
  | zero => intro i log e0 _ _; simp [deliver]
  | succ n ih =>
    intro i log e0 h1 h2
    unfold deliver
    simp only [h1]
    cases n with
    | zero => simp [deliver, List.range']
    | succ n =>
      have h3 : finishEvent cfg e = .ok e := by rcases h2 with h2 | h2; · omega
                                                · exact h2
      rw [ih (i + 1) _ e h3 (.inr h3)]
      simp [List.range'_succ]

def oneHanded (cfg : RConfig) (k : Nat) (name : Str) (p : Put) : List (Nat × Delivery) := handed cfg k [(name, p)]

theorem handed_cons (cfg : RConfig) (k : Nat) (x : Str × Put) (its : List (Str × Put)) : handed cfg k (x :: its) = handed cfg k [x] ++ handed cfg k its := by
  simp [handed]

theorem handed_append (cfg : RConfig) (k : Nat) (a b : List (Str × Put)) : handed cfg k (a ++ b) = handed cfg k a ++ handed cfg k b := by
  simp [handed]

theorem handed_one (cfg : RConfig) (k : Nat) (name : Str) (p : Put) (d : Delivery) (h : delivery cfg name p = some d) :
    handed cfg k [(name, p)] = (List.range k).map fun i => (i, d) := by
  simp [handed, h]

/-- The records of one thing that was put in. -/
theorem scan_one (cfg : RConfig) (k : Nat) (max : Int) (name : Str) (p : Put) (g rs : List Rec) (hg : Holds cfg.codec cfg.std p g)
    (hd : delivery cfg name p ≠ none) (hs : Settled cfg k p) (st : StreamState) (hc : (st.count : Int) < max) (q : Nat) :
    ∃ st', st'.count = st.count + 1 ∧ st'.log = st.log ++ handed cfg k [(name, p)] ∧
      scan (fun st i => (st, isStreamRecord i)) (streamProcessor cfg (.ok name) k max) st q (g ++ rs) =
        if ((st.count + 1 : Nat) : Int) < max then scan (fun st i => (st, isStreamRecord i)) (streamProcessor cfg (.ok name) k max) st' (q + (fileOf g).length) rs
        else (st', .ok (), some rs) := by
  cases hv : delivery cfg name p with
  | none => exact absurd hv hd
  | some d =>
  rw [handed_one cfg k name p d hv]
  cases p with
  | run h buf =>
    obtain ⟨r, rfl, a1, a2, a3⟩ := holds_run cfg cfg.std h buf g hg name
    obtain ⟨h', a4, a5⟩ := a3 q
    simp only [delivery, a4, Option.map_some, Option.some.injEq] at hv
    subst hv
    refine ⟨{ st with count := st.count + 1, log := st.log ++ (List.range k).map fun i => (i, .run h') }, rfl, rfl, ?_⟩
    simp only [List.cons_append, List.nil_append]
    rw [scan_cons]
    have v : isStreamRecord (r.info q) = true := by simp [isStreamRecord, Rec.info, a2]
    have f : streamProcessor cfg (.ok name) k max st (r.info q) r.data =
        ({ st with count := st.count + 1, log := st.log ++ (List.range k).map fun i => (i, .run h') }, .ok (decide (((st.count + 1 : Nat) : Int) < max))) := by
      unfold streamProcessor
      rw [if_pos (by exact a2)]
      simp only [a5]
    simp only [v, f]
    by_cases hm : ((st.count + 1 : Nat) : Int) < max
    · rw [if_pos hm, decide_eq_true hm]
      simp [fileOf_cons, fileOf_nil]
    · rw [if_neg hm, decide_eq_false hm]
  | event h cols buf =>
    have he : ∃ e, d = .event e := by
      simp only [delivery] at hv
      split at hv
      · simp at hv
      · simp only [Option.some.injEq] at hv; exact ⟨_, hv.symm⟩
    obtain ⟨e, rfl⟩ := he
    obtain ⟨r, r', rfl, hrec⟩ := holds_event cfg h cols buf g e hg name hv
    obtain ⟨d1, d2, hdr, cs, h1, h2, h3, h4, h5⟩ := hrec.read
    refine ⟨{ hdr := none, count := st.count + 1, log := st.log ++ (List.range k).map fun i => (i, .event e) }, rfl, rfl, ?_⟩
    simp only [List.cons_append, List.nil_append]
    rw [scan_cons]
    have v : isStreamRecord (r.info q) = true := by simp [isStreamRecord, Rec.info, hrec.name]
    have f : streamProcessor cfg (.ok name) k max st (r.info q) r.data = ({ st with hdr := some hdr }, .ok true) := by
      unfold streamProcessor
      rw [if_neg (by show ¬ r.name = _; rw [hrec.name]; decide), plainData_rec, h1]
      simp only
      rw [if_pos (by exact hrec.name), h3]
      simp only [decide_eq_true hc]
    simp only [v, f]
    rw [scan_cons]
    have v2 : isStreamRecord (r'.info (q + r.wire.length)) = true := by simp [isStreamRecord, Rec.info, hrec.name']
    have hdel : deliver cfg st.log 0 k (hdr, cs) = (st.log ++ (List.range k).map (fun i => (i, .event e)), .ok ()) := by
      rw [List.range_eq_range']
      exact deliver_eq cfg e k 0 st.log (hdr, cs) h5 (hs.imp id fun hs => hs name e hv)
    have f2 : streamProcessor cfg (.ok name) k max { st with hdr := some hdr } (r'.info (q + r.wire.length)) r'.data =
        ({ hdr := none, count := st.count + 1, log := st.log ++ (List.range k).map fun i => (i, .event e) }, .ok (decide (((st.count + 1 : Nat) : Int) < max))) := by
      unfold streamProcessor
      rw [if_neg (by show ¬ r'.name = _; rw [hrec.name']; decide), plainData_rec, h2]
      simp only
      rw [if_neg (by show ¬ r'.name = _; rw [hrec.name']; decide), h4]
      simp only [hdel]
    simp only [v2, f2]
    by_cases hm : ((st.count + 1 : Nat) : Int) < max
    · rw [if_pos hm, decide_eq_true hm]
      simp [fileOf_cons, fileOf_nil, Nat.add_assoc]
    · rw [if_neg hm, decide_eq_false hm]

theorem isStreamRecord_other (r : Rec) (p : Nat) (h1 : r.name ≠ runRecordName) (h2 : r.name ≠ headerRecordName) (h3 : r.name ≠ eventRecordName) :
    isStreamRecord (r.info p) = false := by
  simp [isStreamRecord, Rec.info, h1, h2, h3]

/-- One file: all that is left, or as many as asked for. -/
theorem scan_stream (cfg : RConfig) (k : Nat) (max : Int) (name : Str) {ps : List Put} {rs : List Rec} (h : Layout cfg.codec cfg.std ps rs)
    (hd : ∀ p ∈ ps, delivery cfg name p ≠ none) (hs : ∀ p ∈ ps, Settled cfg k p) (st : StreamState) (hc : (st.count : Int) < max) (q : Nat) :
    ((st.count + ps.length : Int) < max → ∃ st', st'.count = st.count + ps.length ∧ st'.log = st.log ++ handed cfg k (ps.map fun p => (name, p)) ∧
      scan (fun st i => (st, isStreamRecord i)) (streamProcessor cfg (.ok name) k max) st q rs = (st', .error .eof, none)) ∧
    (∀ m : Nat, (st.count + m : Int) = max → m ≤ ps.length → ∃ st' mid rs', st'.log = st.log ++ handed cfg k ((ps.take m).map fun p => (name, p)) ∧
      scan (fun st i => (st, isStreamRecord i)) (streamProcessor cfg (.ok name) k max) st q rs = (st', .ok (), some rs') ∧ rs = mid ++ rs' ∧
      Layout cfg.codec cfg.std (ps.drop m) rs') := by
  induction h generalizing st q with
  | nil =>
    refine ⟨fun _ => ⟨st, by simp, by simp [handed], rfl⟩, ?_⟩
    intro m hm hl
    simp at hl
    omega
  | other r ps rs hr h1 h2 h3 h ih =>
    obtain ⟨i1, i2⟩ := ih hd hs st hc (q + r.wire.length)
    rw [scan_skip _ _ _ _ _ _ (by rw [isStreamRecord_other r q h1 h2 h3])]
    refine ⟨i1, ?_⟩
    intro m hm hl
    obtain ⟨st', mid, rs', a1, a2, a3, a4⟩ := i2 m hm hl
    exact ⟨st', r :: mid, rs', a1, a2, by rw [a3]; rfl, a4⟩
  | put p g ps rs hg h ih =>
    obtain ⟨st1, b1, b2, b3⟩ := scan_one cfg k max name p g rs hg (hd p (by simp)) (hs p (by simp)) st hc q
    rw [b3]
    by_cases hm1 : ((st.count + 1 : Nat) : Int) < max
    · rw [if_pos hm1]
      obtain ⟨i1, i2⟩ := ih (fun x hx => hd x (by simp [hx])) (fun x hx => hs x (by simp [hx])) st1 (by rw [b1]; exact hm1) (q + (fileOf g).length)
      refine ⟨?_, ?_⟩
      · intro hl
        obtain ⟨st', c1, c2, c3⟩ := i1 (by rw [b1]; simp at hl; push_cast; omega)
        refine ⟨st', by rw [c1, b1]; simp; omega, ?_, c3⟩
        rw [c2, b2, List.map_cons, handed_cons cfg k (name, p) (ps.map fun p => (name, p)), List.append_assoc]
      · intro m hm hl
        cases m with
        | zero => omega
        | succ m =>
          obtain ⟨st', mid, rs', c1, c2, c3, c4⟩ := i2 m (by rw [b1]; push_cast at hm ⊢; omega) (by simp at hl; omega)
          refine ⟨st', g ++ mid, rs', ?_, c2, by rw [c3]; simp, by simpa using c4⟩
          rw [c1, b2, List.take_succ_cons, List.map_cons, handed_cons cfg k (name, p) ((ps.take m).map fun p => (name, p)), List.append_assoc]
    · rw [if_neg hm1]
      refine ⟨?_, ?_⟩
      · intro hl; simp at hl; omega
      · intro m hm hl
        have : m = 1 := by push_cast at hm1 hm; omega
        subst this
        refine ⟨st1, g, rs, ?_, rfl, rfl, by simpa using h⟩
        rw [b2]; rfl

/-- `readStream` with a number of records. -/
theorem stream_loop (cfg : RConfig) (k : Nat) (fuel : Nat) (r : Reader) (name : Str) (ps : List Put) (rest : List (Str × List Put)) (h : At cfg r name ps rest)
    (hf : rest.length < fuel) (hd : ∀ x ∈ following name ps rest, delivery cfg x.1 x.2 ≠ none) (hs : ∀ x ∈ following name ps rest, Settled cfg k x.2)
    (n : Nat) (hn : 0 < n) (hmax : (n : Int) < intMax) :
    (n ≤ (following name ps rest).length → ∃ r' name' ps' rest', Reader.readStreamLoop cfg k fuel n r = (handed cfg k ((following name ps rest).take n), .ok (), r') ∧
      At cfg r' name' ps' rest' ∧ following name' ps' rest' = (following name ps rest).drop n) ∧
    ((following name ps rest).length < n → (Reader.readStreamLoop cfg k fuel n r).1 = handed cfg k (following name ps rest) ∧
      (Reader.readStreamLoop cfg k fuel n r).2.1 = .error .endOfData) := by
  induction rest generalizing fuel r name ps n with
  | nil =>
    cases fuel with
    | zero => simp at hf
    | succ fuel =>
    have hfo : following name ps [] = ps.map fun p => (name, p) := by simp [following_eq, items]
    rw [hfo] at hd hs ⊢
    obtain ⟨pr, rs, h1, h2⟩ := h.stream
    obtain ⟨a1, a2⟩ := scan_stream cfg k n name h2 (fun p hp => hd (name, p) (List.mem_map_of_mem hp)) (fun p hp => hs (name, p) (List.mem_map_of_mem hp)) {} (by simp; omega) pr.length
    obtain ⟨s', buf', b1, b2, b3⟩ := readRecords_at (fun st i => (st, isStreamRecord i)) (streamProcessor cfg (.ok name) k n) pr rs h2.ok r.buf {}
    unfold Reader.readStreamLoop
    rw [h.file, h1, b1]
    refine ⟨?_, ?_⟩
    · intro hl
      obtain ⟨st', mid, rs', c1, c2, c3, c4⟩ := a2 n (by simp) (by simpa using hl)
      refine ⟨{ r with stream := s', buf := buf' }, name, ps.drop n, [], ?_, ⟨⟨pr ++ fileOf mid, rs', b3 mid rs' c3 (by rw [c2]), c4⟩, h.file, h.files⟩, ?_⟩
      · rw [c2]
        simp only [c1, List.map_take]
        rfl
      · simp [following_eq, items]
    · intro hl
      obtain ⟨st', c0, c1, c2⟩ := a1 (by simp at hl; simp; omega)
      have hnn := noNext cfg { r with stream := s', buf := buf' } h.files
      rw [c2]
      simp only [hnn, Bool.false_eq_true, if_false]
      rw [if_neg (by omega)]
      exact ⟨by rw [c1]; rfl, rfl⟩
  | cons w rest ih =>
    cases fuel with
    | zero => simp at hf
    | succ fuel =>
    have hfo : following name ps (w :: rest) = ps.map (fun p => (name, p)) ++ following w.1 w.2 rest := by simp [following_eq, items]
    rw [hfo] at hd hs ⊢
    obtain ⟨pr, rs, h1, h2⟩ := h.stream
    obtain ⟨a1, a2⟩ := scan_stream cfg k n name h2 (fun p hp => hd (name, p) (by simp [hp])) (fun p hp => hs (name, p) (by simp [hp])) {} (by simp; omega) pr.length
    obtain ⟨s', buf', b1, b2, b3⟩ := readRecords_at (fun st i => (st, isStreamRecord i)) (streamProcessor cfg (.ok name) k n) pr rs h2.ok r.buf {}
    unfold Reader.readStreamLoop
    rw [h.file, h1, b1]
    by_cases hl : n ≤ ps.length
    · refine ⟨fun _ => ?_, fun hx => ?_⟩
      · obtain ⟨st', mid, rs', c1, c2, c3, c4⟩ := a2 n (by simp) (by simpa using hl)
        refine ⟨{ r with stream := s', buf := buf' }, name, ps.drop n, w :: rest, ?_, ⟨⟨pr ++ fileOf mid, rs', b3 mid rs' c3 (by rw [c2]), c4⟩, h.file, h.files⟩, ?_⟩
        · rw [c2]
          simp only [c1]
          rw [List.take_append_of_le_length (by simpa using hl), List.map_take]
          rfl
        · rw [List.drop_append_of_le_length (by simpa using hl)]
          simp [following_eq, items]
      · simp at hx; omega
    · obtain ⟨st', c0, c1, c2⟩ := a1 (by simp; omega)
      obtain ⟨d1, r2, d2, d3, d4⟩ := nextFile_at cfg { r with stream := s', buf := buf' } w rest h.files
      have hcount : (n : Int) - (st'.count : Int) = ((n - ps.length : Nat) : Int) := by rw [c0]; simp; omega
      obtain ⟨e1, e2⟩ := ih fuel r2 w.1 w.2 d3 (by simp at hf; omega) (fun x hx => hd x (by simp [hx])) (fun x hx => hs x (by simp [hx])) (n - ps.length) (by omega)
        (by omega)
      rw [c2]
      simp only [d1, if_true, d2]
      rw [if_neg (by omega), hcount]
      refine ⟨?_, ?_⟩
      · intro hx
        obtain ⟨r', name', ps', rest', g1, g2, g3⟩ := e1 (by simp at hx; omega)
        refine ⟨r', name', ps', rest', ?_, g2, ?_⟩
        · rw [g1, c1, List.take_append, List.take_of_length_le (l := ps.map fun p => (name, p)) (by rw [List.length_map]; omega), handed_append, List.length_map]
          rfl
        · rw [g3, List.drop_append, List.drop_of_length_le (l := ps.map fun p => (name, p)) (by rw [List.length_map]; omega), List.length_map]
          rfl
      · intro hx
        obtain ⟨g1, g2⟩ := e2 (by simp at hx; omega)
        refine ⟨?_, g2⟩
        rw [g1, c1, handed_append]
        rfl

/-- `readStream` without a number of records. -/
theorem stream_all (cfg : RConfig) (k : Nat) (fuel : Nat) (r : Reader) (name : Str) (ps : List Put) (rest : List (Str × List Put)) (h : At cfg r name ps rest)
    (hf : rest.length < fuel) (hd : ∀ x ∈ following name ps rest, delivery cfg x.1 x.2 ≠ none) (hs : ∀ x ∈ following name ps rest, Settled cfg k x.2)
    (hn : (ps.length : Int) < intMax) (hn' : ∀ f ∈ rest, (f.2.length : Int) < intMax) :
    (Reader.readStreamLoop cfg k fuel intMax r).1 = handed cfg k (following name ps rest) ∧ (Reader.readStreamLoop cfg k fuel intMax r).2.1 = .ok () := by
  induction rest generalizing fuel r name ps with
  | nil =>
    cases fuel with
    | zero => simp at hf
    | succ fuel =>
    have hfo : following name ps [] = ps.map fun p => (name, p) := by simp [following_eq, items]
    rw [hfo] at hd hs ⊢
    obtain ⟨pr, rs, h1, h2⟩ := h.stream
    obtain ⟨a1, -⟩ := scan_stream cfg k intMax name h2 (fun p hp => hd (name, p) (List.mem_map_of_mem hp)) (fun p hp => hs (name, p) (List.mem_map_of_mem hp)) {} (by decide) pr.length
    obtain ⟨s', buf', b1, b2, b3⟩ := readRecords_at (fun st i => (st, isStreamRecord i)) (streamProcessor cfg (.ok name) k intMax) pr rs h2.ok r.buf {}
    unfold Reader.readStreamLoop
    rw [h.file, h1, b1]
    obtain ⟨st', c0, c1, c2⟩ := a1 (by simp; omega)
    have hnn := noNext cfg { r with stream := s', buf := buf' } h.files
    rw [c2]
    simp only [hnn, Bool.false_eq_true, if_false, if_true]
    exact ⟨by rw [c1]; rfl, trivial⟩
  | cons w rest ih =>
    cases fuel with
    | zero => simp at hf
    | succ fuel =>
    have hfo : following name ps (w :: rest) = ps.map (fun p => (name, p)) ++ following w.1 w.2 rest := by simp [following_eq, items]
    rw [hfo] at hd hs ⊢
    obtain ⟨pr, rs, h1, h2⟩ := h.stream
    obtain ⟨a1, -⟩ := scan_stream cfg k intMax name h2 (fun p hp => hd (name, p) (by simp [hp])) (fun p hp => hs (name, p) (by simp [hp])) {} (by decide) pr.length
    obtain ⟨s', buf', b1, b2, b3⟩ := readRecords_at (fun st i => (st, isStreamRecord i)) (streamProcessor cfg (.ok name) k intMax) pr rs h2.ok r.buf {}
    unfold Reader.readStreamLoop
    rw [h.file, h1, b1]
    obtain ⟨st', c0, c1, c2⟩ := a1 (by simp; omega)
    obtain ⟨d1, r2, d2, d3, d4⟩ := nextFile_at cfg { r with stream := s', buf := buf' } w rest h.files
    obtain ⟨e1, e2⟩ := ih fuel r2 w.1 w.2 d3 (by simp at hf; omega) (fun x hx => hd x (by simp [hx])) (fun x hx => hs x (by simp [hx]))
      (hn' w (by simp)) (fun f hf => hn' f (by simp [hf]))
    rw [c2]
    simp only [d1, if_true, d2]
    refine ⟨?_, e2⟩
    rw [e1, c1, handed_append]
    rfl

/-! ## No records asked for -/

/-- An event follows and no records are asked for: its header is read. -/
theorem scan_zero (cfg : RConfig) (k : Nat) (max : Int) (hmax : max ≤ 0) (name : Str) {ps : List Put} {rs : List Rec} (h : Layout cfg.codec cfg.std ps rs)
    (p : Put) (ps' : List Put) (hps : ps = p :: ps') (e : EventData) (he : delivery cfg name p = some (.event e)) (q : Nat) :
    ∃ st' mid r' rs', scan (fun st i => (st, isStreamRecord i)) (streamProcessor cfg (.ok name) k max) {} q rs = (st', .ok (), some (r' :: rs')) ∧
      st'.log = [] ∧ rs = mid ++ r' :: rs' ∧ r'.name = eventRecordName ∧ ∃ d, plainOf cfg.codec r' = .ok d := by
  induction h generalizing q with
  | nil => simp at hps
  | other r ps rs hr h1 h2 h3 h ih =>
    obtain ⟨st', mid, r', rs', a1, a2, a3, a4⟩ := ih hps (q + r.wire.length)
    refine ⟨st', r :: mid, r', rs', ?_, a2, by rw [a3]; rfl, a4⟩
    rw [scan_skip _ _ _ _ _ _ (by rw [isStreamRecord_other r q h1 h2 h3])]
    exact a1
  | put p' g ps rs hg h ih =>
    simp only [List.cons.injEq] at hps
    obtain ⟨rfl, rfl⟩ := hps
    cases p' with
    | run hd buf => simp [delivery, Put.loadedRun] at he
    | event hd cols buf =>
      obtain ⟨r, r', rfl, hrec⟩ := holds_event cfg hd cols buf g e hg name he
      obtain ⟨d1, d2, hdr, cs, h1, h2, h3, h4, h5⟩ := hrec.read
      refine ⟨{ hdr := some hdr }, [r], r', rs, ?_, rfl, rfl, hrec.name', d2, h2⟩
      simp only [List.cons_append, List.nil_append]
      rw [scan_cons]
      have v : isStreamRecord (r.info q) = true := by simp [isStreamRecord, Rec.info, hrec.name]
      have f : streamProcessor cfg (.ok name) k max {} (r.info q) r.data = ({ hdr := some hdr }, .ok false) := by
        unfold streamProcessor
        rw [if_neg (by show ¬ r.name = _; rw [hrec.name]; decide), plainData_rec, h1]
        simp only
        rw [if_pos (by exact hrec.name), h3]
        have : decide (((0 : Nat) : Int) < max) = false := by simp; omega
        simp only [this]
      simp only [v, f]

/-- Nothing is delivered, and the next call of `readNextEvent` throws. -/
theorem stream_zero (cfg : RConfig) (k : Nat) (max : Int) (hmax : max ≤ 0) (r : Reader) (name : Str) (p : Put) (ps : List Put) (rest : List (Str × List Put))
    (h : At cfg r name (p :: ps) rest) (e : EventData) (he : delivery cfg name p = some (.event e)) :
    ∃ r', r.readStream cfg k max = ([], .ok (), r') ∧ (r'.readNextEvent cfg).1 = .error .ioException := by
  obtain ⟨pr, rs, h1, h2⟩ := h.stream
  obtain ⟨st', mid, r', rs', a1, a2, a3, a4, d, a5⟩ := scan_zero cfg k max hmax name h2 p ps rfl e he pr.length
  obtain ⟨s', buf', b1, b2, b3⟩ := readRecords_at (fun st i => (st, isStreamRecord i)) (streamProcessor cfg (.ok name) k max) pr rs h2.ok r.buf {}
  have hs := b3 mid (r' :: rs') a3 (by rw [a1])
  refine ⟨{ r with stream := s', buf := buf' }, ?_, ?_⟩
  · unfold Reader.readStream Reader.readStreamLoop
    rw [h.file, h1, b1, a1]
    simp only [a2]
  · have hok : ∀ x ∈ r' :: rs', x.Ok := fun x hx => h2.ok x (by rw [a3]; exact List.mem_append_right _ hx)
    obtain ⟨s2, buf2, c1, -, -⟩ := readRecords_at (fun st i => (st, isEventRecord i)) (eventProcessor cfg) (pr ++ fileOf mid) (r' :: rs') hok buf' {}
    have hsc : scan (fun st i => (st, isEventRecord i)) (eventProcessor cfg) {} (pr ++ fileOf mid).length (r' :: rs') = ({}, .error .ioException, some rs') := by
      rw [scan_cons]
      have v : isEventRecord (r'.info (pr ++ fileOf mid).length) = true := by simp [isEventRecord, Rec.info, a4]
      have f : eventProcessor cfg {} (r'.info (pr ++ fileOf mid).length) r'.data = ({}, .error .ioException) := by
        unfold eventProcessor
        rw [plainData_rec, a5]
        simp only
        rw [if_neg (by show ¬ r'.name = _; rw [a4]; decide), if_pos (by exact a4)]
      simp only [v, f]
    unfold Reader.readNextEvent Reader.readNextEventLoop
    simp only [hs]
    rw [c1, hsc]

end Lcio
