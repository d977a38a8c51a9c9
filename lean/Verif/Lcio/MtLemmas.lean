import Verif.Spec.Mt
import Verif.Lcio.WriterLemmas
/-
Any schedule is a sequential order.
-/
namespace Lcio
open Sio Spec

/-! ## The critical section of one call -/

/-- The rest of a critical section. -/
def runScript : List MtStep → Option OStream → Option RaMgr → Nat → Except Err Unit → Option OStream × Option RaMgr × Except Err Unit
  | [], st, ra, _, out => (st, ra, out)
  | i :: is, st, ra, pos, out => match i.exec st ra pos with
    | (st, ra, pos, .ok ()) => runScript is st ra pos out
    | (st, ra, _, .error e) => (st, ra, .error e)

theorem writeTo_pad (st : OStream) (rec : List Byte) (info : RecordInfo) :
    (writeRecordTo st rec info).2 = (rec :: padOf rec.length).foldl OStream.write st ∧ (writeRecordTo st rec info).1.fileStart = st.pos := by
  unfold writeRecordTo padOf
  refine ⟨?_, rfl⟩
  by_cases hp : padBytes rec.length > 0
  · simp [hp]
  · simp [hp]

theorem writeTo2_pad (st : OStream) (hdr comp : List Byte) (info : RecordInfo) :
    (writeRecordTo2 st hdr comp info).2 = ([hdr, comp] ++ padOf comp.length).foldl OStream.write st ∧ (writeRecordTo2 st hdr comp info).1.fileStart = st.pos := by
  unfold writeRecordTo2 padOf
  refine ⟨?_, rfl⟩
  by_cases hp : padBytes comp.length > 0
  · simp [hp]
  · simp [hp]

theorem packOne_write (codec : Codec) (buf : List Byte) (name : Str) (bs : List WBlock) (c : Bool) (r : RecordInfo × List Byte) (ps : List (List Byte))
    (h1 : writeRecord name buf bs 0 = .ok r) (h2 : packOne codec c r = .ok ps) (st : OStream) :
    ∃ info b, writeJob codec buf st ⟨name, 0, bs, c⟩ = .ok (info, b, ps.foldl OStream.write st) ∧ info.fileStart = st.pos := by
  unfold writeJob
  simp only
  rw [h1]
  simp only [bind, Except.bind]
  unfold packOne at h2
  cases c with
  | false =>
    simp only [Bool.false_eq_true, if_false, Except.ok.injEq] at h2 ⊢
    subst h2
    obtain ⟨e1, e2⟩ := writeTo_pad st r.2 r.1
    exact ⟨_, _, by rw [← e1]; rfl, e2⟩
  | true =>
    simp only [if_true] at h2 ⊢
    cases hc : compressRecord codec r.1 r.2 with
    | error e => rw [hc] at h2; cases h2
    | ok x =>
      obtain ⟨info, rec, comp⟩ := x
      rw [hc] at h2
      simp only at h2 ⊢
      cases hs : spanOf rec 0 info.headerLength with
      | error e => rw [hs] at h2; cases h2
      | ok hdr =>
        rw [hs] at h2
        simp only [Except.ok.injEq] at h2 ⊢
        subst h2
        obtain ⟨e1, e2⟩ := writeTo2_pad st hdr comp info
        exact ⟨_, _, by rw [← e1]; rfl, e2⟩

theorem runScript_writes (bs : List (List Byte)) (rest : List MtStep) (st : OStream) (ra : Option RaMgr) (pos : Nat) (out : Except Err Unit) :
    runScript (bs.map .write ++ rest) (some st) ra pos out = runScript rest (some (bs.foldl OStream.write st)) ra pos out := by
  induction bs generalizing st with
  | nil => rfl
  | cons b bs ih =>
    simp only [List.map_cons, List.cons_append, List.foldl_cons]
    rw [← ih]
    rfl

theorem encodeAll_inv (n : Nat) (j : Str × List WBlock) (js : List (Str × List WBlock)) (rs : List (RecordInfo × List Byte)) (h : encodeAll n (j :: js) = .ok rs) :
    ∃ r rs', rs = r :: rs' ∧ writeRecord j.1 (zeros n) j.2 0 = .ok r ∧ encodeAll n js = .ok rs' := by
  unfold encodeAll at h
  cases h1 : writeRecord j.1 (zeros n) j.2 0 with
  | error e => rw [h1] at h; cases h
  | ok r =>
    rw [h1] at h
    simp only at h
    cases h2 : encodeAll n js with
    | error e => rw [h2] at h; cases h
    | ok rs' =>
      rw [h2] at h
      simp only [Except.ok.injEq] at h
      exact ⟨r, rs', h.symm, rfl, rfl⟩

theorem packAll_inv (codec : Codec) (c : Bool) (r : RecordInfo × List Byte) (rs : List (RecordInfo × List Byte)) (ps : List (List (List Byte)))
    (h : packAll codec c (r :: rs) = .ok ps) : ∃ p ps', ps = p :: ps' ∧ packOne codec c r = .ok p ∧ packAll codec c rs = .ok ps' := by
  unfold packAll at h
  cases h1 : packOne codec c r with
  | error e => rw [h1] at h; cases h
  | ok p =>
    rw [h1] at h
    simp only at h
    cases h2 : packAll codec c rs with
    | error e => rw [h2] at h; cases h
    | ok ps' =>
      rw [h2] at h
      simp only [Except.ok.injEq] at h
      exact ⟨p, ps', h.symm, rfl, rfl⟩

/-- A critical section does what the sequential call does. -/
theorem script_call (codec : Codec) (std : Std Pid) (call : MtCall) (n : Nat) (c : Bool) (recs : List (RecordInfo × List Byte)) (parts : List (List (List Byte)))
    (h1 : encodeAll n (call.jobs std) = .ok recs) (h2 : packAll codec c recs = .ok parts) (size : Nat) (st : OStream) (m : RaMgr) (pos : Nat) :
    ∃ w' : Writer, (call.put n).call codec std c ⟨some st, m⟩ = (.ok (), w') ∧ w'.stream.isSome = true ∧
      runScript (call.script parts size) (some st) (some m) pos (.ok ()) = (w'.stream, some w'.ra, .ok ()) := by
  cases call with
  | run h =>
    obtain ⟨r, rs, rfl, e1, e2⟩ := encodeAll_inv n _ _ _ h1
    cases e2
    obtain ⟨p, ps, rfl, e3, e4⟩ := packAll_inv codec c _ _ _ h2
    cases e4
    obtain ⟨info, b, e5, e6⟩ := packOne_write codec (zeros n) _ _ c r p e1 e3 st
    simp only at e5
    simp only [MtCall.put, Put.call, Writer.writeRunHeader]
    rw [e5]
    refine ⟨_, rfl, rfl, ?_⟩
    unfold MtCall.script
    simp only [List.cons_append, List.nil_append, List.flatten_cons, List.flatten_nil, List.append_nil]
    show runScript (p.map .write ++ _) (some st) (some m) st.pos (.ok ()) = _
    rw [runScript_writes, e6]
    rfl
  | event h cols =>
    obtain ⟨r, rs, rfl, e1, e2⟩ := encodeAll_inv n _ _ _ h1
    obtain ⟨r', rs, rfl, e1', e2⟩ := encodeAll_inv n _ _ _ e2
    cases e2
    obtain ⟨p, ps, rfl, e3, e4⟩ := packAll_inv codec c _ _ _ h2
    obtain ⟨p', ps, rfl, e3', e4⟩ := packAll_inv codec c _ _ _ e4
    cases e4
    obtain ⟨info, b, e5, e6⟩ := packOne_write codec (zeros n) _ _ c r p e1 e3 st
    obtain ⟨info', b', e5', e6'⟩ := packOne_write codec (zeros n) _ _ c r' p' e1' e3' (p.foldl OStream.write st)
    simp only at e5 e5'
    simp only [MtCall.put, Put.call, Writer.writeEvent]
    rw [e5]
    simp only
    rw [e5']
    refine ⟨_, rfl, rfl, ?_⟩
    unfold MtCall.script
    simp only [List.cons_append, List.nil_append, List.flatten_cons, List.flatten_nil, List.append_nil]
    show runScript ((p ++ p').map .write ++ _) (some st) (some m) st.pos (.ok ()) = _
    rw [runScript_writes, e6, List.foldl_append]
    rfl

/-! ## The invariant -/

/-- The call a thread is in. -/
def MtPhase.current : MtPhase → List MtCall
  | .idle => []
  | .sized call _ => [call]
  | .encoded call _ _ => [call]
  | .waiting call _ _ _ => [call]
  | .inside call _ _ _ _ _ => [call]

/-- The call of a thread that has the mutex. -/
def MtPhase.inCall : MtPhase → List MtCall
  | .inside call _ _ _ _ _ => [call]
  | _ => []

/-- What a thread has computed is right. (`A` says which compression is possible.) -/
def MtPhase.Right (codec : Codec) (std : Std Pid) (A : Bool → Prop) : MtPhase → Prop
  | .encoded call n recs => encodeAll n (call.jobs std) = .ok recs
  | .waiting call n c script => A c ∧ ∃ recs parts size, encodeAll n (call.jobs std) = .ok recs ∧ packAll codec c recs = .ok parts ∧ script = call.script parts size
  | _ => True

theorem putEach_snoc (codec : Codec) (std : Std Pid) (w w' w'' : Writer) (ps : List (Bool × Put)) (p : Bool × Put) (h : putEach codec std w ps = .ok w')
    (h' : p.2.call codec std p.1 w' = (.ok (), w'')) : putEach codec std w (ps ++ [p]) = .ok w'' := by
  induction ps generalizing w with
  | nil =>
    simp only [putEach, Except.ok.injEq] at h
    subst h
    simp [putEach, h']
  | cons q ps ih =>
    unfold putEach at h
    rw [List.cons_append]
    unfold putEach
    cases hq : q.2.call codec std q.1 w with
    | mk r v =>
      rw [hq] at h
      cases r with
      | error e => cases h
      | ok u => exact ih v h

structure MtInv (codec : Codec) (std : Std Pid) (A : Bool → Prop) (w0 : Writer) (prog : Nat → List MtCall) (s : MtState) (order : List Turn) : Prop where
  calls : ∀ t, (s.threads t).results.map (·.1) ++ (s.threads t).phase.current ++ (s.threads t).todo = prog t
  turns : ∀ t, turnsOf t order = succeeded (s.threads t) ++ (s.threads t).phase.inCall
  right : ∀ t, (s.threads t).phase.Right codec std A
  level : A (s.level != 0)
  flags : ∀ u ∈ order, A u.compress
  seq : ∃ w : Writer, putEach codec std w0 (order.map Turn.put) = .ok w ∧ w.stream.isSome = true ∧
    match s.owner with
    | none => s.stream = w.stream ∧ s.ra = some w.ra ∧ ∀ t, (s.threads t).phase.inCall = []
    | some u => (∃ call n c script pos out, (s.threads u).phase = .inside call n c script pos out ∧ runScript script s.stream s.ra pos out = (w.stream, some w.ra, .ok ())) ∧
        ∀ t, t ≠ u → (s.threads t).phase.inCall = []

theorem setThread_self (s : MtState) (t : Nat) (th : MtThread) : (s.setThread t th).threads t = th := by simp [MtState.setThread]
theorem setThread_ne (s : MtState) (t u : Nat) (th : MtThread) (h : u ≠ t) : (s.setThread t th).threads u = s.threads u := by simp [MtState.setThread, h]

theorem turnsOf_snoc (t : Nat) (order : List Turn) (u : Turn) : turnsOf t (order ++ [u]) = turnsOf t order ++ (if u.thread = t then [u.call] else []) := by
  unfold turnsOf
  rw [List.filter_append, List.map_append]
  congr 1
  by_cases h : u.thread = t <;> simp [h]

theorem MtInv.start (codec : Codec) (std : Std Pid) (A : Bool → Prop) (w0 : Writer) (hw : w0.stream.isSome = true) (prog : Nat → List MtCall) (maxBuf : Nat) (level : Int) (hA : A (level != 0)) :
    MtInv codec std A w0 prog (mtStart w0 prog maxBuf level) [] := by
  refine ⟨fun t => rfl, fun t => rfl, fun t => trivial, hA, by simp, w0, rfl, hw, rfl, rfl, fun t => rfl⟩

/-- A change of one thread that does not touch the rest. -/
theorem MtInv.local {codec : Codec} {std : Std Pid} {A : Bool → Prop} {w0 : Writer} {prog : Nat → List MtCall} {s : MtState} {order : List Turn} (h : MtInv codec std A w0 prog s order)
    (t : Nat) (th : MtThread) (h1 : th.results.map (·.1) ++ th.phase.current ++ th.todo = (s.threads t).results.map (·.1) ++ (s.threads t).phase.current ++ (s.threads t).todo)
    (h2 : succeeded th = succeeded (s.threads t)) (h3 : th.phase.Right codec std A) (h4 : th.phase.inCall = []) (h5 : (s.threads t).phase.inCall = []) :
    MtInv codec std A w0 prog (s.setThread t th) order := by
  obtain ⟨c1, c2, c3, c7, c8, w, c4, c5, c6⟩ := h
  have cases' : ∀ u, (u = t ∧ (s.setThread t th).threads u = th) ∨ (u ≠ t ∧ (s.setThread t th).threads u = s.threads u) := by
    intro u
    by_cases hu : u = t
    · subst hu; exact .inl ⟨rfl, setThread_self ..⟩
    · exact .inr ⟨hu, setThread_ne _ _ _ _ hu⟩
  refine ⟨?_, ?_, ?_, c7, c8, w, c4, c5, ?_⟩
  · intro u
    rcases cases' u with ⟨rfl, e⟩ | ⟨-, e⟩ <;> rw [e]
    · rw [h1]; exact c1 _
    · exact c1 u
  · intro u
    rcases cases' u with ⟨rfl, e⟩ | ⟨-, e⟩ <;> rw [e]
    · rw [h2, h4, ← h5]; exact c2 _
    · exact c2 u
  · intro u
    rcases cases' u with ⟨rfl, e⟩ | ⟨-, e⟩ <;> rw [e]
    · exact h3
    · exact c3 u
  · show match s.owner with
      | none => _
      | some u => _
    cases ho : s.owner with
    | none =>
      rw [ho] at c6
      refine ⟨c6.1, c6.2.1, ?_⟩
      intro u
      rcases cases' u with ⟨rfl, e⟩ | ⟨-, e⟩ <;> rw [e]
      · exact h4
      · exact c6.2.2 u
    | some v =>
      rw [ho] at c6
      simp only at c6 ⊢
      obtain ⟨⟨call, n, c, script, pos, out, e1, e2⟩, e3⟩ := c6
      have hv : v ≠ t := by
        rintro rfl
        rw [e1] at h5
        simp [MtPhase.inCall] at h5
      refine ⟨⟨call, n, c, script, pos, out, ?_, e2⟩, ?_⟩
      · rw [setThread_ne _ _ _ _ hv]; exact e1
      · intro u hu
        rcases cases' u with ⟨rfl, e⟩ | ⟨-, e⟩ <;> rw [e]
        · exact h4
        · exact e3 u hu

theorem succeeded_error (th : MtThread) (call : MtCall) (e : Err) (ph : MtPhase) (todo : List MtCall) :
    succeeded { th with todo := todo, phase := ph, results := th.results ++ [(call, .error e)] } = succeeded th := by
  simp [succeeded, List.filter_append, Except.isOk, Except.toBool]

theorem succeeded_ok (th : MtThread) (call : MtCall) (ph : MtPhase) (todo : List MtCall) :
    succeeded { th with todo := todo, phase := ph, results := th.results ++ [(call, .ok ())] } = succeeded th ++ [call] := by
  simp [succeeded, List.filter_append, Except.isOk, Except.toBool]

theorem MtInv.step {codec : Codec} {std : Std Pid} {A : Bool → Prop} {w0 : Writer} {prog : Nat → List MtCall} {s : MtState} {order : List Turn} (h : MtInv codec std A w0 prog s order) (t : Nat) :
    ∃ order', MtInv codec std A w0 prog (s.step codec std t) order' := by
  unfold MtState.step
  simp only
  cases hp : (s.threads t).phase with
  | idle =>
    simp only
    cases ht : (s.threads t).todo with
    | nil => exact ⟨order, h⟩
    | cons call todo =>
      refine ⟨order, h.local t _ ?_ rfl trivial rfl (by rw [hp]; rfl)⟩
      simp [hp, ht, MtPhase.current]
  | sized call n =>
    simp only
    cases he : encodeAll n (call.jobs std) with
    | error e =>
      refine ⟨order, h.local t _ ?_ (succeeded_error ..) trivial rfl (by rw [hp]; rfl)⟩
      simp [hp, MtPhase.current]
    | ok recs =>
      refine ⟨order, h.local t _ ?_ rfl he rfl (by rw [hp]; rfl)⟩
      simp [hp, MtPhase.current]
  | encoded call n recs =>
    have hr := h.right t
    rw [hp] at hr
    simp only
    cases he : packAll codec (s.level != 0) recs with
    | error e =>
      refine ⟨order, h.local t _ ?_ (succeeded_error ..) trivial rfl (by rw [hp]; rfl)⟩
      simp [hp, MtPhase.current]
    | ok parts =>
      refine ⟨order, h.local t _ ?_ rfl ⟨h.level, recs, parts, _, hr, he, rfl⟩ rfl (by rw [hp]; rfl)⟩
      simp [hp, MtPhase.current]
  | waiting call n c script =>
    simp only
    cases ho : s.owner with
    | some u => exact ⟨order, h⟩
    | none =>
      simp only
      obtain ⟨c1, c2, c3, c7, c8, w, c4, c5, c6⟩ := h
      rw [ho] at c6
      obtain ⟨d1, d2, d3⟩ := c6
      have hr := c3 t
      rw [hp] at hr
      obtain ⟨hAc, recs, parts, size, r1, r2, r3⟩ := hr
      obtain ⟨st, hst⟩ := Option.isSome_iff_exists.1 c5
      obtain ⟨w', e1, e2, e3⟩ := script_call codec std call n c recs parts r1 r2 size st w.ra 0
      refine ⟨order ++ [⟨t, call, n, c⟩], ?_, ?_, ?_, c7, by
        intro u hu
        rcases List.mem_append.1 hu with hu | hu
        · exact c8 u hu
        · simp at hu; subst hu; exact hAc, w', ?_, e2, ?_⟩
      · intro u
        by_cases hu : u = t
        · subst hu
          have := c1 u
          rw [hp] at this
          simp only [MtState.setThread, if_true, MtPhase.current]
          simpa [MtPhase.current] using this
        · simp only [MtState.setThread, if_neg hu]; exact c1 u
      · intro u
        rw [turnsOf_snoc]
        by_cases hu : u = t
        · subst hu
          have := c2 u
          rw [hp] at this
          simp only [MtState.setThread, if_true, MtPhase.inCall, List.append_nil] at this ⊢
          rw [this]
          rfl
        · simp only [MtState.setThread, if_neg hu, if_neg (Ne.symm hu), List.append_nil]; exact c2 u
      · intro u
        by_cases hu : u = t
        · subst hu; simp only [MtState.setThread, if_true]; trivial
        · simp only [MtState.setThread, if_neg hu]; exact c3 u
      · rw [List.map_append]
        apply putEach_snoc codec std w0 w w' _ _ c4
        have : w = ⟨some st, w.ra⟩ := by rw [← hst]
        rw [this]
        exact e1
      · simp only
        refine ⟨⟨call, n, c, script, 0, .ok (), by simp [MtState.setThread], ?_⟩, ?_⟩
        · show runScript script s.stream s.ra 0 (.ok ()) = _
          rw [d1, d2, hst, r3]
          exact e3
        · intro u hu
          simp only [MtState.setThread, if_neg hu]; exact d3 u
  | inside call n c script pos out =>
    obtain ⟨c1, c2, c3, c7, c8, w, c4, c5, c6⟩ := h
    have hown : s.owner = some t := by
      cases ho : s.owner with
      | none => rw [ho] at c6; have := c6.2.2 t; rw [hp] at this; simp [MtPhase.inCall] at this
      | some u =>
        rw [ho] at c6
        by_cases hu : t = u
        · rw [hu]
        · have := c6.2 t hu; rw [hp] at this; simp [MtPhase.inCall] at this
    rw [hown] at c6
    obtain ⟨⟨call', n', c', script', pos', out', e1, e2⟩, e3⟩ := c6
    rw [hp] at e1
    cases e1
    cases script with
    | nil =>
      simp only [runScript, Prod.mk.injEq] at e2
      obtain ⟨e4, e5, rfl⟩ := e2
      refine ⟨order, ?_, ?_, ?_, c7, c8, w, c4, c5, e4, e5, ?_⟩
      · intro u
        by_cases hu : u = t
        · subst hu
          have := c1 u
          rw [hp] at this
          simp only [MtState.setThread, if_true, MtPhase.current]
          simpa [MtPhase.current] using this
        · simp only [MtState.setThread, if_neg hu]; exact c1 u
      · intro u
        by_cases hu : u = t
        · subst hu
          have := c2 u
          rw [hp] at this
          simp only [MtState.setThread, if_true, succeeded_ok, MtPhase.inCall, List.append_nil]
          exact this
        · simp only [MtState.setThread, if_neg hu]; exact c2 u
      · intro u
        by_cases hu : u = t
        · subst hu; simp only [MtState.setThread, if_true]; trivial
        · simp only [MtState.setThread, if_neg hu]; exact c3 u
      · intro u
        by_cases hu : u = t
        · subst hu; simp only [MtState.setThread, if_true]; rfl
        · simp only [MtState.setThread, if_neg hu]; exact e3 u hu
    | cons i script =>
      simp only
      unfold runScript at e2
      generalize hi : i.exec s.stream s.ra pos = x at e2 ⊢
      obtain ⟨st, ra, pos', out'⟩ := x
      cases out' with
      | error e => cases e2
      | ok u =>
        simp only at e2 ⊢
        refine ⟨order, ?_, ?_, ?_, c7, c8, w, c4, c5, ?_⟩
        · intro u
          by_cases hu : u = t
          · subst hu
            have := c1 u
            rw [hp] at this
            simp only [MtState.setThread, if_true, MtPhase.current]
            simpa [MtPhase.current] using this
          · simp only [MtState.setThread, if_neg hu]; exact c1 u
        · intro u
          by_cases hu : u = t
          · subst hu
            have := c2 u
            rw [hp] at this
            simp only [MtState.setThread, if_true]
            exact this
          · simp only [MtState.setThread, if_neg hu]; exact c2 u
        · intro u
          by_cases hu : u = t
          · subst hu; simp only [MtState.setThread, if_true]; trivial
          · simp only [MtState.setThread, if_neg hu]; exact c3 u
        · show match s.owner with
            | none => _
            | some u => _
          rw [hown]
          refine ⟨⟨call, n, c, script, pos', out, by simp [MtState.setThread], e2⟩, ?_⟩
          intro u hu
          simp only [MtState.setThread, if_neg hu]; exact e3 u hu

theorem MtInv.run {codec : Codec} {std : Std Pid} {A : Bool → Prop} {w0 : Writer} {prog : Nat → List MtCall} {s : MtState} {order : List Turn} (h : MtInv codec std A w0 prog s order)
    (schedule : List MtChoice) (hA : ∀ n, .level n ∈ schedule → A (n != 0)) : ∃ order', MtInv codec std A w0 prog (s.run codec std schedule) order' := by
  induction schedule generalizing s order with
  | nil => exact ⟨order, h⟩
  | cons c schedule ih =>
    unfold MtState.run
    rw [List.foldl_cons]
    cases c with
    | thread t =>
      obtain ⟨order', h'⟩ := h.step t
      exact ih h' (fun n hn => hA n (List.mem_cons_of_mem _ hn))
    | level n =>
      exact ih (order := order) ⟨h.calls, h.turns, h.right, hA n (List.mem_cons_self ..), h.flags, h.seq⟩ (fun n hn => hA n (List.mem_cons_of_mem _ hn))

end Lcio
