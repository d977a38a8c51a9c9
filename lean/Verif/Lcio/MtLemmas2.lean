import Verif.Lcio.MtLemmas
import Verif.Lcio.CursorLemmas
import Verif.Lcio.DirectLemmas
/-
Calls that succeed, the file, and that all threads come to an end.
-/
namespace Lcio
open Sio Spec

/-! ## Calls that succeed -/

theorem packOne_ok (codec : Codec) (buf : List Byte) (name : Str) (bs : List WBlock) (c : Bool) (st : OStream) (x : RecordInfo × List Byte × OStream)
    (h : writeJob codec buf st ⟨name, 0, bs, c⟩ = .ok x) : ∃ r ps, writeRecord name buf bs 0 = .ok r ∧ packOne codec c r = .ok ps := by
  unfold writeJob at h
  simp only [bind, Except.bind] at h
  cases h1 : writeRecord name buf bs 0 with
  | error e => rw [h1] at h; cases h
  | ok r =>
    rw [h1] at h
    refine ⟨r, ?_⟩
    unfold packOne
    cases c with
    | false => exact ⟨_, rfl, rfl⟩
    | true =>
      simp only [if_true] at h ⊢
      cases hc : compressRecord codec r.1 r.2 with
      | error e => rw [hc] at h; cases h
      | ok y =>
        obtain ⟨info, rec, comp⟩ := y
        rw [hc] at h
        simp only at h ⊢
        cases hs : spanOf rec 0 info.headerLength with
        | error e => rw [hs] at h; cases h
        | ok hdr => exact ⟨_, trivial, rfl⟩

theorem call_packs (codec : Codec) (hcodec : Lossless codec) (std : Std Pid) (call : MtCall) (n : Nat) (h : ∀ c, (call.put 0).Ok codec std c) :
    ∃ recs, encodeAll n (call.jobs std) = .ok recs ∧ ∀ c, ∃ parts, packAll codec c recs = .ok parts := by
  have key : ∀ name bs, (∀ c, Job.Ok codec ⟨name, 0, bs, c⟩) → ∃ r, writeRecord name (zeros n) bs 0 = .ok r ∧ ∀ c, ∃ ps, packOne codec c r = .ok ps := by
    intro name bs hj
    obtain ⟨x, -, -, hx⟩ := over_writeJob codec hcodec (zeros n) [] [] name bs false (hj false)
    obtain ⟨r, -, h1, -⟩ := packOne_ok codec (zeros n) name bs false _ _ hx
    refine ⟨r, h1, fun c => ?_⟩
    obtain ⟨x, -, -, hx⟩ := over_writeJob codec hcodec (zeros n) [] [] name bs c (hj c)
    obtain ⟨r', ps, h1', h2⟩ := packOne_ok codec (zeros n) name bs c _ _ hx
    rw [h1] at h1'
    cases h1'
    exact ⟨ps, h2⟩
  cases call with
  | run hd =>
    obtain ⟨r, h1, h2⟩ := key runRecordName [hd.block] (fun c => (h c).2)
    refine ⟨[r], by simp only [MtCall.jobs, encodeAll, h1], fun c => ?_⟩
    obtain ⟨ps, h3⟩ := h2 c
    exact ⟨[ps], by simp [packAll, h3]⟩
  | event hd cols =>
    obtain ⟨r, h1, h2⟩ := key headerRecordName _ (fun c => (h c).1)
    obtain ⟨r', h1', h2'⟩ := key eventRecordName _ (fun c => (h c).2)
    refine ⟨[r, r'], by simp only [MtCall.jobs, encodeAll, h1, h1'], fun c => ?_⟩
    obtain ⟨ps, h3⟩ := h2 c
    obtain ⟨ps', h3'⟩ := h2' c
    exact ⟨[ps, ps'], by simp [packAll, h3, h3']⟩

/-- No call has thrown. -/
def AllOk (s : MtState) : Prop := ∀ t, ∀ r ∈ (s.threads t).results, r.2 = .ok ()

theorem AllOk.local {s : MtState} (h : AllOk s) (t : Nat) (th : MtThread) (h1 : ∀ r ∈ th.results, r.2 = .ok ()) : AllOk (s.setThread t th) := by
  intro u
  by_cases hu : u = t
  · subst hu; rw [setThread_self]; exact h1
  · rw [setThread_ne _ _ _ _ hu]; exact h u

theorem AllOk.step {codec : Codec} (hcodec : Lossless codec) {std : Std Pid} {w0 : Writer} {prog : Nat → List MtCall} {s : MtState} {order : List Turn}
    (hi : MtInv codec std (fun _ => True) w0 prog s order) (hp : ∀ t, ∀ call ∈ prog t, ∀ c, (call.put 0).Ok codec std c) (h : AllOk s) (t : Nat) : AllOk (s.step codec std t) := by
  have hmem : ∀ call ∈ (s.threads t).phase.current, ∀ c, (call.put 0).Ok codec std c := by
    intro call hc
    apply hp t call
    rw [← hi.calls t]
    exact List.mem_append_left _ (List.mem_append_right _ hc)
  unfold MtState.step
  simp only
  cases hph : (s.threads t).phase with
  | idle =>
    simp only
    cases ht : (s.threads t).todo with
    | nil => exact h
    | cons call todo => exact h.local t _ (h t)
  | sized call n =>
    rw [hph] at hmem
    obtain ⟨recs, h1, -⟩ := call_packs codec hcodec std call n (hmem call (by simp [MtPhase.current]))
    simp only [h1]
    exact h.local t _ (h t)
  | encoded call n recs =>
    rw [hph] at hmem
    obtain ⟨recs', h1, h2⟩ := call_packs codec hcodec std call n (hmem call (by simp [MtPhase.current]))
    have hr := hi.right t
    rw [hph] at hr
    have hr : encodeAll n (call.jobs std) = .ok recs := hr
    rw [h1] at hr
    cases hr
    obtain ⟨parts, h3⟩ := h2 (s.level != 0)
    simp only [h3]
    exact h.local t _ (h t)
  | waiting call n c script =>
    simp only
    cases s.owner with
    | some u => exact h
    | none => exact h.local t _ (h t)
  | inside call n c script pos out =>
    obtain ⟨c1, c2, c3, c7, c8, w, c4, c5, c6⟩ := hi
    have hown : s.owner = some t := by
      cases ho : s.owner with
      | none => rw [ho] at c6; have := c6.2.2 t; rw [hph] at this; simp [MtPhase.inCall] at this
      | some u =>
        rw [ho] at c6
        by_cases hu : t = u
        · rw [hu]
        · have := c6.2 t hu; rw [hph] at this; simp [MtPhase.inCall] at this
    rw [hown] at c6
    obtain ⟨⟨call', n', c', script', pos', out', e1, e2⟩, e3⟩ := c6
    rw [hph] at e1
    cases e1
    cases script with
    | nil =>
      simp only [runScript, Prod.mk.injEq] at e2
      obtain ⟨-, -, rfl⟩ := e2
      refine AllOk.local h t _ ?_
      intro r hr
      rcases List.mem_append.1 hr with hr | hr
      · exact h t r hr
      · simp at hr; rw [hr]
    | cons i script =>
      simp only
      generalize hx : i.exec s.stream s.ra pos = x
      obtain ⟨st, ra, pos', out'⟩ := x
      cases out' with
      | error e => exact AllOk.local h t _ (h t)
      | ok u => exact AllOk.local h t _ (h t)

theorem AllOk.run {codec : Codec} (hcodec : Lossless codec) {std : Std Pid} {w0 : Writer} {prog : Nat → List MtCall} {s : MtState} {order : List Turn}
    (hi : MtInv codec std (fun _ => True) w0 prog s order) (hp : ∀ t, ∀ call ∈ prog t, ∀ c, (call.put 0).Ok codec std c) (h : AllOk s) (schedule : List MtChoice) :
    AllOk (s.run codec std schedule) := by
  induction schedule generalizing s order with
  | nil => exact h
  | cons c schedule ih =>
    unfold MtState.run
    rw [List.foldl_cons]
    cases c with
    | thread t =>
      obtain ⟨order', h'⟩ := hi.step t
      exact ih h' (h.step hcodec hi hp t)
    | level n => exact ih (order := order) ⟨hi.calls, hi.turns, hi.right, trivial, hi.flags, hi.seq⟩ h

theorem succeeded_all (th : MtThread) (h : ∀ r ∈ th.results, r.2 = .ok ()) : succeeded th = th.results.map (·.1) := by
  unfold succeeded
  rw [List.filter_eq_self.2]
  intro r hr
  rw [h r hr]
  rfl

/-! ## All calls once -/

theorem turns_perm (N : Nat) (order : List Turn) (prog : Nat → List MtCall) (h : ∀ t, turnsOf t order = prog t) (hN : ∀ t, N ≤ t → prog t = []) :
    (order.map (·.call)).Perm ((List.range N).flatMap prog) := by
  induction N generalizing order prog with
  | zero =>
    have : order = [] := by
      cases order with
      | nil => rfl
      | cons u order =>
        have := h u.thread
        rw [hN _ (Nat.zero_le _)] at this
        simp [turnsOf] at this
    subst this
    exact List.Perm.refl _
  | succ N ih =>
    have h2 := ih (order.filter fun u => !(u.thread == N)) (fun t => if t = N then [] else prog t) ?_ ?_
    · rw [List.range_succ, List.flatMap_append]
      simp only [List.flatMap_cons, List.flatMap_nil, List.append_nil]
      rw [← h N]
      have e : (List.range N).flatMap (fun t => if t = N then [] else prog t) = (List.range N).flatMap prog := by
        apply List.flatMap_congr
        intro t ht
        rw [if_neg (by simp at ht; omega)]
      rw [e] at h2
      have h3 := (List.filter_append_perm (fun u : Turn => u.thread == N) order).symm.map (·.call)
      rw [List.map_append] at h3
      refine h3.trans ?_
      refine (List.perm_append_comm).trans ?_
      exact List.Perm.append h2 (List.Perm.refl _)
    · intro t
      split
      · rename_i ht
        subst ht
        unfold turnsOf
        rw [List.filter_filter]
        rw [List.filter_eq_nil_iff.2 (by intro u _; cases u.thread == t <;> simp)]
        rfl
      · rename_i ht
        rw [← h t]
        unfold turnsOf
        rw [List.filter_filter]
        congr 1
        apply List.filter_congr
        intro u _
        by_cases hu : u.thread = t
        · have : ¬ t = N := ht
          simp [hu, this]
        · simp [hu]
    · intro t ht
      split
      · rfl
      · exact hN t (by omega)

/-! ## The file -/

theorem over_putEach (codec : Codec) (hcodec : Lossless codec) (std : Std Pid) (ps : List (Bool × Put)) (hp : ∀ p ∈ ps, p.2.Ok codec std p.1)
    (A T : List Byte) (ra : RaMgr) :
    ∃ gs, All2 (Holds codec std) (ps.map (·.2)) gs ∧
      putEach codec std ⟨some (over A T), ra⟩ ps =
        .ok ⟨some (over (A ++ fileOf gs.flatten) (T.drop (fileOf gs.flatten).length)), ra.addKeys (keysFrom A.length (ps.map (·.2)) gs)⟩ := by
  induction ps generalizing A T ra with
  | nil => exact ⟨[], All2.nil _, by simp [putEach, fileOf_nil, keysFrom, RaMgr.addKeys]⟩
  | cons p ps ih =>
    obtain ⟨g, h1, h2⟩ := over_put codec hcodec std p.1 p.2 (hp p (by simp)) A T ra
    obtain ⟨gs, h3, h4⟩ := ih (fun q hq => hp q (by simp [hq])) (A ++ fileOf g) (T.drop (fileOf g).length) (ra.add p.2.key A.length)
    refine ⟨g :: gs, All2.cons h1 h3, ?_⟩
    unfold putEach
    rw [h2]
    simp only [h4, List.flatten_cons, fileOf_append, List.append_assoc, List.drop_drop, List.length_append, List.map_cons, keysFrom, RaMgr.addKeys, List.foldl_cons]

theorem put_ok_size (codec : Codec) (std : Std Pid) (call : MtCall) (n m : Nat) (c : Bool) (h : (call.put n).Ok codec std c) : (call.put m).Ok codec std c := by
  cases call with
  | run => exact h
  | event => exact h

theorem put_key_size (call : MtCall) (n : Nat) : (call.put n).key = call.key := by cases call <;> rfl

/-! ## All threads come to an end -/

/-- The steps of one thread until it releases the mutex. -/
theorem finish_inside (codec : Codec) (std : Std Pid) (u : Nat) (call : MtCall) (n : Nat) (c : Bool) (script : List MtStep) :
    ∀ (s : MtState) (pos : Nat) (out : Except Err Unit), s.owner = some u → (s.threads u).phase = .inside call n c script pos out →
    ∃ sched, (s.run codec std sched).owner = none ∧ ((s.run codec std sched).threads u).phase = .idle ∧
      ((s.run codec std sched).threads u).todo = (s.threads u).todo ∧ ∀ v, v ≠ u → (s.run codec std sched).threads v = s.threads v := by
  have hnil : ∀ (s : MtState) (pos : Nat) (out : Except Err Unit), s.owner = some u → (s.threads u).phase = .inside call n c [] pos out →
      (s.step codec std u).owner = none ∧ ((s.step codec std u).threads u).phase = .idle ∧
      ((s.step codec std u).threads u).todo = (s.threads u).todo ∧ ∀ v, v ≠ u → (s.step codec std u).threads v = s.threads v := by
    intro s pos out h1 h2
    unfold MtState.step
    simp only [h2]
    refine ⟨trivial, ?_, ?_, ?_⟩
    · simp [MtState.setThread]
    · simp [MtState.setThread]
    · intro v hv; simp [MtState.setThread, hv]
  induction script with
  | nil =>
    intro s pos out h1 h2
    exact ⟨[.thread u], hnil s pos out h1 h2⟩
  | cons i script ih =>
    intro s pos out h1 h2
    cases hx : i.exec s.stream s.ra pos with
    | mk st x =>
      obtain ⟨ra, pos', out'⟩ := x
      cases out' with
      | ok _ =>
        have e : s.step codec std u = { s.setThread u { s.threads u with phase := .inside call n c script pos' out } with stream := st, ra := ra, maxBuf := i.grown s.maxBuf } := by
          unfold MtState.step
          simp only [h2, hx]
        obtain ⟨sched, a1, a2, a3, a4⟩ := ih (s.step codec std u) pos' out (by rw [e]; exact h1) (by rw [e]; simp [MtState.setThread])
        refine ⟨.thread u :: sched, a1, a2, a3.trans ?_, fun v hv => (a4 v hv).trans ?_⟩
        · rw [e]; simp [MtState.setThread]
        · rw [e]; simp [MtState.setThread, hv]
      | error er =>
        have e : s.step codec std u = { s.setThread u { s.threads u with phase := .inside call n c [] pos' (.error er) } with stream := st, ra := ra } := by
          unfold MtState.step
          simp only [h2, hx]
        obtain ⟨a1, a2, a3, a4⟩ := hnil (s.step codec std u) pos' (.error er) (by rw [e]; exact h1) (by rw [e]; simp [MtState.setThread])
        refine ⟨[.thread u, .thread u], a1, a2, a3.trans ?_, fun v hv => (a4 v hv).trans ?_⟩
        · rw [e]; simp [MtState.setThread]
        · rw [e]; simp [MtState.setThread, hv]

theorem run_append (codec : Codec) (std : Std Pid) (s : MtState) (a b : List MtChoice) : s.run codec std (a ++ b) = (s.run codec std a).run codec std b := by
  simp [MtState.run, List.foldl_append]

/-- Nobody has the mutex, and `t` finishes its call. -/
theorem finish_call (codec : Codec) (std : Std Pid) (t : Nat) (s : MtState) (h1 : s.owner = none) (h2 : (s.threads t).phase.inCall = []) :
    ∃ sched, (s.run codec std sched).owner = none ∧ ((s.run codec std sched).threads t).phase = .idle ∧
      ((s.run codec std sched).threads t).todo = (s.threads t).todo ∧ ∀ v, v ≠ t → (s.run codec std sched).threads v = s.threads v := by
  have waiting : ∀ (s : MtState) call n c script, s.owner = none → (s.threads t).phase = .waiting call n c script →
      ∃ sched, (s.run codec std sched).owner = none ∧ ((s.run codec std sched).threads t).phase = .idle ∧
      ((s.run codec std sched).threads t).todo = (s.threads t).todo ∧ ∀ v, v ≠ t → (s.run codec std sched).threads v = s.threads v := by
    intro s call n c script h1 h2
    have e : s.step codec std t = { s.setThread t { s.threads t with phase := .inside call n c script 0 (.ok ()) } with owner := some t } := by
      unfold MtState.step
      simp only [h2, h1]
    obtain ⟨sched, a1, a2, a3, a4⟩ := finish_inside codec std t call n c script (s.step codec std t) 0 (.ok ()) (by rw [e]) (by rw [e]; simp [MtState.setThread])
    refine ⟨.thread t :: sched, a1, a2, a3.trans ?_, fun v hv => (a4 v hv).trans ?_⟩
    · rw [e]; simp [MtState.setThread]
    · rw [e]; simp [MtState.setThread, hv]
  have encoded : ∀ (s : MtState) call n recs, s.owner = none → (s.threads t).phase = .encoded call n recs →
      ∃ sched, (s.run codec std sched).owner = none ∧ ((s.run codec std sched).threads t).phase = .idle ∧
      ((s.run codec std sched).threads t).todo = (s.threads t).todo ∧ ∀ v, v ≠ t → (s.run codec std sched).threads v = s.threads v := by
    intro s call n recs h1 h2
    cases hp : packAll codec (s.level != 0) recs with
    | error er =>
      refine ⟨[.thread t], ?_⟩
      show (s.step codec std t).owner = none ∧ ((s.step codec std t).threads t).phase = .idle ∧ ((s.step codec std t).threads t).todo = _ ∧ ∀ v, v ≠ t → (s.step codec std t).threads v = _
      unfold MtState.step
      simp only [h2, hp]
      refine ⟨h1, by simp [MtState.setThread], by simp [MtState.setThread], fun v hv => by simp [MtState.setThread, hv]⟩
    | ok parts =>
      have e : s.step codec std t = s.setThread t { s.threads t with phase := .waiting call n (s.level != 0) (call.script parts ((recs.getLast?.map (·.2.length)).getD 0)) } := by
        unfold MtState.step
        simp only [h2, hp]
      obtain ⟨sched, a1, a2, a3, a4⟩ := waiting (s.step codec std t) call n _ _ (by rw [e]; exact h1) (by rw [e]; simp [MtState.setThread]; exact ⟨rfl, rfl⟩)
      refine ⟨.thread t :: sched, a1, a2, a3.trans ?_, fun v hv => (a4 v hv).trans ?_⟩
      · rw [e]; simp [MtState.setThread]
      · rw [e]; simp [MtState.setThread, hv]
  cases hph : (s.threads t).phase with
  | idle => exact ⟨[], h1, hph, rfl, fun _ _ => rfl⟩
  | sized call n =>
    cases hp : encodeAll n (call.jobs std) with
    | error er =>
      refine ⟨[.thread t], ?_⟩
      show (s.step codec std t).owner = none ∧ ((s.step codec std t).threads t).phase = .idle ∧ ((s.step codec std t).threads t).todo = _ ∧ ∀ v, v ≠ t → (s.step codec std t).threads v = _
      unfold MtState.step
      simp only [hph, hp]
      refine ⟨h1, by simp [MtState.setThread], by simp [MtState.setThread], fun v hv => by simp [MtState.setThread, hv]⟩
    | ok recs =>
      have e : s.step codec std t = s.setThread t { s.threads t with phase := .encoded call n recs } := by
        unfold MtState.step
        simp only [hph, hp]
      obtain ⟨sched, a1, a2, a3, a4⟩ := encoded (s.step codec std t) call n recs (by rw [e]; exact h1) (by rw [e]; simp [MtState.setThread])
      refine ⟨.thread t :: sched, a1, a2, a3.trans ?_, fun v hv => (a4 v hv).trans ?_⟩
      · rw [e]; simp [MtState.setThread]
      · rw [e]; simp [MtState.setThread, hv]
  | encoded call n recs => exact encoded s call n recs h1 hph
  | waiting call n c script => exact waiting s call n c script h1 hph
  | inside call n c script pos out => rw [hph] at h2; simp [MtPhase.inCall] at h2

/-- It finishes all its calls. -/
theorem finish_thread (codec : Codec) (std : Std Pid) (t : Nat) (todo : List MtCall) : ∀ s : MtState, s.owner = none → (s.threads t).phase.inCall = [] →
    (s.threads t).todo = todo →
    ∃ sched, (s.run codec std sched).owner = none ∧ ((s.run codec std sched).threads t).phase = .idle ∧
      ((s.run codec std sched).threads t).todo = [] ∧ ∀ v, v ≠ t → (s.run codec std sched).threads v = s.threads v := by
  induction todo with
  | nil =>
    intro s h1 h2 h3
    obtain ⟨sched, a1, a2, a3, a4⟩ := finish_call codec std t s h1 h2
    exact ⟨sched, a1, a2, by rw [a3, h3], a4⟩
  | cons call todo ih =>
    intro s h1 h2 h3
    obtain ⟨sched, a1, a2, a3, a4⟩ := finish_call codec std t s h1 h2
    rw [h3] at a3
    have e : (s.run codec std sched).step codec std t =
        (s.run codec std sched).setThread t { (s.run codec std sched).threads t with todo := todo, phase := .sized call (s.run codec std sched).maxBuf } := by
      conv => lhs; unfold MtState.step
      simp only [a2, a3]
    obtain ⟨sched', b1, b2, b3, b4⟩ := ih ((s.run codec std sched).step codec std t) (by rw [e]; exact a1) (by rw [e, setThread_self]; rfl) (by rw [e, setThread_self])
    refine ⟨sched ++ .thread t :: sched', ?_⟩
    rw [run_append]
    refine ⟨b1, b2, b3, fun v hv => (b4 v hv).trans ?_⟩
    rw [e, setThread_ne _ _ _ _ hv, a4 v hv]

theorem finish_all (codec : Codec) (std : Std Pid) (N : Nat) : ∀ s : MtState, s.owner = none → (∀ t, (s.threads t).phase.inCall = []) →
    ∃ sched, (s.run codec std sched).owner = none ∧ (∀ t, t < N → ((s.run codec std sched).threads t).phase = .idle ∧ ((s.run codec std sched).threads t).todo = []) ∧
      ∀ v, N ≤ v → (s.run codec std sched).threads v = s.threads v := by
  induction N with
  | zero => intro s h1 h2; exact ⟨[], h1, fun t ht => absurd ht (Nat.not_lt_zero t), fun _ _ => rfl⟩
  | succ N ih =>
    intro s h1 h2
    obtain ⟨sched, a1, a2, a3⟩ := ih s h1 h2
    obtain ⟨sched', b1, b2, b3, b4⟩ := finish_thread codec std N _ (s.run codec std sched) a1 (by rw [a3 N (Nat.le_refl N)]; exact h2 N) rfl
    refine ⟨sched ++ sched', ?_⟩
    rw [run_append]
    refine ⟨b1, ?_, ?_⟩
    · intro t ht
      by_cases e : t = N
      · subst e; exact ⟨b2, b3⟩
      · rw [b4 t e]; exact a2 t (by omega)
    · intro v hv
      rw [b4 v (by omega), a3 v (by omega)]

end Lcio
