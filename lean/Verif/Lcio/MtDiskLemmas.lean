import Verif.Lcio.MtDisk
import Verif.Lcio.MtLemmas2
import Verif.Lcio.FullDiskLemmas
import Verif.Lcio.FullDiskClose
/-
Threads on a disk that becomes full.
-/
namespace Lcio
open Sio Spec

/-- The rest of a critical section. -/
def runDisk : List MtStep → Option LimStream → Option RaMgr → Nat → Except Err Unit → Option LimStream × Option RaMgr × Except Err Unit
  | [], st, ra, _, out => (st, ra, out)
  | i :: is, st, ra, pos, out => match i.execDisk st ra pos with
    | (st, ra, pos, .ok ()) => runDisk is st ra pos out
    | (st, ra, _, .error e) => (st, ra, .error e)

/-- The writes of a critical section. -/
theorem runDisk_writes (parts : List (List Byte)) : ∀ {t : LimStream} {s : OStream}, Twin t s → t.good = true → ∀ (is : List MtStep) (m : Option RaMgr) (pos : Nat),
    ∃ t', t'.limit = t.limit ∧ Twin t' (parts.foldl OStream.write s) ∧
      (t'.good = true → runDisk (parts.map .write ++ is) (some t) m pos (.ok ()) = runDisk is (some t') m pos (.ok ())) ∧
      (t'.good = false → runDisk (parts.map .write ++ is) (some t) m pos (.ok ()) = (some t', m, .error .ioFailure)) := by
  induction parts with
  | nil =>
    intro t s h hg is m pos
    exact ⟨t, rfl, h, fun _ => rfl, fun hx => by rw [hg] at hx; cases hx⟩
  | cons b parts ih =>
    intro t s h hg is m pos
    obtain ⟨h1, h2, -⟩ := twin_write h b
    cases hb : (t.write b).good with
    | true =>
      obtain ⟨t', a1, a2, a3, a4⟩ := ih h1 hb is m pos
      refine ⟨t', a1.trans h2, a2, fun hx => ?_, fun hx => ?_⟩
      · rw [← a3 hx]
        simp only [List.map_cons, List.cons_append, runDisk, MtStep.execDisk, hb, if_true]
      · rw [← a4 hx]
        simp only [List.map_cons, List.cons_append, runDisk, MtStep.execDisk, hb, if_true]
    | false =>
      have more : ∀ (ps : List (List Byte)) (s : OStream), Twin (t.write b) s → Twin (t.write b) (ps.foldl OStream.write s) := by
        intro ps
        induction ps with
        | nil => exact fun _ h => h
        | cons p ps ih => exact fun s h => ih _ (twin_more h hb p)
      refine ⟨t.write b, h2, more parts _ h1, fun hx => (by rw [hb] at hx; cases hx), fun _ => ?_⟩
      simp [runDisk, MtStep.execDisk, hb]

/-- A critical section on a disk that is not full: the call of a writer on a larger disk, or an exception. -/
theorem script_disk (codec : Codec) (std : Std Pid) (call : MtCall) (n : Nat) (c : Bool) (recs : List (RecordInfo × List Byte)) (parts : List (List (List Byte)))
    (h1 : encodeAll n (call.jobs std) = .ok recs) (h2 : packAll codec c recs = .ok parts) (size : Nat) {t : LimStream} {st : OStream} (h : Twin t st) (hg : t.good = true) (m : RaMgr) :
    ∃ (w' : Writer) (st' : OStream) (t' : LimStream), (call.put n).call codec std c ⟨some st, m⟩ = (.ok (), w') ∧ w'.stream = some st' ∧ t'.limit = t.limit ∧ Twin t' st' ∧
      (t'.good = true → runDisk (call.script parts size) (some t) (some m) 0 (.ok ()) = (some t', some w'.ra, .ok ())) ∧
      (t'.good = false → runDisk (call.script parts size) (some t) (some m) 0 (.ok ()) = (some t', some m, .error .ioFailure)) := by
  obtain ⟨w', a1, a2, a3⟩ := script_call codec std call n c recs parts h1 h2 size st m 0
  have hts : t.s = st := (h.same hg).1
  unfold MtCall.script at a3 ⊢
  simp only [List.cons_append, List.nil_append, runScript, runDisk, MtStep.exec, MtStep.execDisk, Option.isNone_some, Bool.false_eq_true, if_false, Option.map_some, Option.getD_some, hg,
    Bool.not_true] at a3 ⊢
  rw [runScript_writes] at a3
  simp only [runScript, MtStep.exec, Prod.mk.injEq] at a3
  obtain ⟨a4, a5, -⟩ := a3
  obtain ⟨t', b1, b2, b3, b4⟩ := runDisk_writes parts.flatten h hg [.add call.key, .grow size] (some m) t.s.pos
  refine ⟨w', _, t', a1, a4.symm, b1, b2, fun hx => ?_, fun hx => b4 hx⟩
  rw [b3 hx]
  simp only [runDisk, MtStep.execDisk]
  rw [hts, a5]

/-- A critical section on a full disk. -/
theorem script_full (call : MtCall) (parts : List (List (List Byte))) (size : Nat) {t : LimStream} (hg : t.good = false) (ra : Option RaMgr) :
    runDisk (call.script parts size) (some t) ra 0 (.ok ()) = (some t, ra, .error .badState) := by
  unfold MtCall.script
  simp [runDisk, MtStep.execDisk, hg]

/-- The stream and the random access manager when nobody is writing: as on a larger disk, or the disk became full in a call. -/
def DiskRest (codec : Codec) (std : Std Pid) (A : Bool → Prop) (w0 : Writer) (limit : Nat) (threads : Nat → MtThread) (order : List Turn) (w : Writer) (stream : Option LimStream) (ra : Option RaMgr) : Prop :=
  ∃ t st, stream = some t ∧ t.limit = limit ∧ w.stream = some st ∧ ra = some w.ra ∧
    ((t.good = true ∧ Twin t st) ∨
      (t.good = false ∧ st.pos ≤ limit ∧ ∃ (f : Turn) (w' : Writer) (st' : OStream), putEach codec std w0 ((order ++ [f]).map Turn.put) = .ok w' ∧ w'.stream = some st' ∧ Twin t st' ∧ A f.compress ∧
        (f.call, .error .ioFailure) ∈ (threads f.thread).results))

theorem DiskRest.mono {codec : Codec} {std : Std Pid} {A : Bool → Prop} {w0 : Writer} {limit : Nat} {th th' : Nat → MtThread} {order : List Turn} {w : Writer} {stream : Option LimStream} {ra : Option RaMgr}
    (h : DiskRest codec std A w0 limit th order w stream ra) (ht : ∀ t, ∀ r ∈ (th t).results, r ∈ (th' t).results) : DiskRest codec std A w0 limit th' order w stream ra := by
  obtain ⟨t, st, h1, h2, h3, h4, h5⟩ := h
  refine ⟨t, st, h1, h2, h3, h4, ?_⟩
  rcases h5 with h5 | ⟨h5, h6, f, w', st', h7, h8, h9, h10, h11⟩
  · exact .inl h5
  · exact .inr ⟨h5, h6, f, w', st', h7, h8, h9, h10, ht _ _ h11⟩

/-- What holds after any steps. -/
structure DiskInv (codec : Codec) (std : Std Pid) (A : Bool → Prop) (w0 : Writer) (limit : Nat) (prog : Nat → List MtCall) (s : MtDisk) (order : List Turn) : Prop where
  calls : ∀ t, (s.threads t).results.map (·.1) ++ (s.threads t).phase.current ++ (s.threads t).todo = prog t
  turns : ∀ t, turnsOf t order = succeeded (s.threads t)
  right : ∀ t, (s.threads t).phase.Right codec std A
  level : A (s.level != 0)
  flags : ∀ u ∈ order, A u.compress
  seq : ∃ w : Writer, putEach codec std w0 (order.map Turn.put) = .ok w ∧
    match s.owner with
    | none => DiskRest codec std A w0 limit s.threads order w s.stream s.ra ∧ ∀ t, (s.threads t).phase.inCall = []
    | some u => (∃ call n c script pos out, (s.threads u).phase = .inside call n c script pos out ∧ A c ∧
        ∃ recs parts size stream0, encodeAll n (call.jobs std) = .ok recs ∧ packAll codec c recs = .ok parts ∧ DiskRest codec std A w0 limit s.threads order w stream0 (some w.ra) ∧
          runDisk script s.stream s.ra pos out = runDisk (call.script parts size) stream0 (some w.ra) 0 (.ok ())) ∧
        ∀ t, t ≠ u → (s.threads t).phase.inCall = []

theorem disk_self (s : MtDisk) (t : Nat) (th : MtThread) : (s.setThread t th).threads t = th := by simp [MtDisk.setThread]
theorem disk_ne (s : MtDisk) (t u : Nat) (th : MtThread) (h : u ≠ t) : (s.setThread t th).threads u = s.threads u := by simp [MtDisk.setThread, h]

theorem DiskInv.start (codec : Codec) (std : Std Pid) (A : Bool → Prop) (w0 : Writer) (o : OStream) (limit : Nat) (hw : w0.stream = some o) (hin : o.pos ≤ o.bytes.length) (hl : o.bytes.length ≤ limit)
    (prog : Nat → List MtCall) (maxBuf : Nat) (level : Int) (hA : A (level != 0)) :
    DiskInv codec std A w0 limit prog (diskStart limit w0 prog maxBuf level) [] := by
  refine ⟨fun t => rfl, fun t => rfl, fun t => trivial, hA, by simp, w0, rfl, ⟨{ s := o, limit := limit }, o, by simp [diskStart, hw], rfl, hw, rfl, .inl ⟨rfl, ?_⟩⟩, fun t => rfl⟩
  exact ⟨hin, fun _ => ⟨rfl, hl⟩, fun hx => (by cases hx)⟩

/-- A change of one thread that does not touch the rest. -/
theorem DiskInv.local {codec : Codec} {std : Std Pid} {A : Bool → Prop} {w0 : Writer} {limit : Nat} {prog : Nat → List MtCall} {s : MtDisk} {order : List Turn} (h : DiskInv codec std A w0 limit prog s order)
    (t : Nat) (th : MtThread) (h1 : th.results.map (·.1) ++ th.phase.current ++ th.todo = (s.threads t).results.map (·.1) ++ (s.threads t).phase.current ++ (s.threads t).todo)
    (h2 : succeeded th = succeeded (s.threads t)) (h3 : th.phase.Right codec std A) (h4 : th.phase.inCall = []) (h5 : (s.threads t).phase.inCall = [])
    (h6 : ∀ r ∈ (s.threads t).results, r ∈ th.results) :
    DiskInv codec std A w0 limit prog (s.setThread t th) order := by
  obtain ⟨c1, c2, c3, c7, c8, w, c4, c6⟩ := h
  have cases' : ∀ u, (u = t ∧ (s.setThread t th).threads u = th) ∨ (u ≠ t ∧ (s.setThread t th).threads u = s.threads u) := by
    intro u
    by_cases hu : u = t
    · subst hu; exact .inl ⟨rfl, disk_self ..⟩
    · exact .inr ⟨hu, disk_ne _ _ _ _ hu⟩
  have mono : ∀ u, ∀ r ∈ (s.threads u).results, r ∈ ((s.setThread t th).threads u).results := by
    intro u r hr
    rcases cases' u with ⟨rfl, e⟩ | ⟨-, e⟩ <;> rw [e]
    · exact h6 r hr
    · exact hr
  refine ⟨?_, ?_, ?_, c7, c8, w, c4, ?_⟩
  · intro u
    rcases cases' u with ⟨rfl, e⟩ | ⟨-, e⟩ <;> rw [e]
    · rw [h1]; exact c1 _
    · exact c1 u
  · intro u
    rcases cases' u with ⟨rfl, e⟩ | ⟨-, e⟩ <;> rw [e]
    · rw [h2]; exact c2 _
    · exact c2 u
  · intro u
    rcases cases' u with ⟨rfl, e⟩ | ⟨-, e⟩ <;> rw [e]
    · exact h3
    · exact c3 u
  · show match s.owner with
      | none => _
      | some u => _
    cases ho : s.owner with
    | none =>
      rw [ho] at c6
      refine ⟨c6.1.mono mono, ?_⟩
      intro u
      rcases cases' u with ⟨rfl, e⟩ | ⟨-, e⟩ <;> rw [e]
      · exact h4
      · exact c6.2 u
    | some v =>
      rw [ho] at c6
      simp only at c6 ⊢
      obtain ⟨⟨call, n, c, script, pos, out, e1, eA, recs, parts, size, stream0, e2, e3, e4, e5⟩, e6⟩ := c6
      have hv : v ≠ t := by
        rintro rfl
        rw [e1] at h5
        simp [MtPhase.inCall] at h5
      refine ⟨⟨call, n, c, script, pos, out, ?_, eA, recs, parts, size, stream0, e2, e3, e4.mono mono, e5⟩, ?_⟩
      · rw [disk_ne _ _ _ _ hv]; exact e1
      · intro u hu
        rcases cases' u with ⟨rfl, e⟩ | ⟨-, e⟩ <;> rw [e]
        · exact h4
        · exact e6 u hu

theorem DiskInv.step {codec : Codec} {std : Std Pid} {A : Bool → Prop} {w0 : Writer} {limit : Nat} {prog : Nat → List MtCall} {s : MtDisk} {order : List Turn} (h : DiskInv codec std A w0 limit prog s order)
    (t : Nat) : ∃ order', DiskInv codec std A w0 limit prog (s.step codec std t) order' := by
  unfold MtDisk.step
  simp only
  cases hp : (s.threads t).phase with
  | idle =>
    simp only
    cases ht : (s.threads t).todo with
    | nil => exact ⟨order, h⟩
    | cons call todo =>
      refine ⟨order, h.local t _ ?_ rfl trivial rfl (by rw [hp]; rfl) (fun r hr => hr)⟩
      simp [hp, ht, MtPhase.current]
  | sized call n =>
    simp only
    cases he : encodeAll n (call.jobs std) with
    | error e =>
      refine ⟨order, h.local t _ ?_ (succeeded_error ..) trivial rfl (by rw [hp]; rfl) (fun r hr => List.mem_append_left _ hr)⟩
      simp [hp, MtPhase.current]
    | ok recs =>
      refine ⟨order, h.local t _ ?_ rfl he rfl (by rw [hp]; rfl) (fun r hr => hr)⟩
      simp [hp, MtPhase.current]
  | encoded call n recs =>
    have hr := h.right t
    rw [hp] at hr
    simp only
    cases he : packAll codec (s.level != 0) recs with
    | error e =>
      refine ⟨order, h.local t _ ?_ (succeeded_error ..) trivial rfl (by rw [hp]; rfl) (fun r hr => List.mem_append_left _ hr)⟩
      simp [hp, MtPhase.current]
    | ok parts =>
      refine ⟨order, h.local t _ ?_ rfl ⟨h.level, recs, parts, _, hr, he, rfl⟩ rfl (by rw [hp]; rfl) (fun r hr => hr)⟩
      simp [hp, MtPhase.current]
  | waiting call n c script =>
    simp only
    cases ho : s.owner with
    | some u => exact ⟨order, h⟩
    | none =>
      simp only
      obtain ⟨c1, c2, c3, c7, c8, w, c4, c6⟩ := h
      rw [ho] at c6
      obtain ⟨d1, d3⟩ := c6
      have hr := c3 t
      rw [hp] at hr
      obtain ⟨hAc, recs, parts, size, r1, r2, r3⟩ := hr
      have mono : ∀ u, ∀ r ∈ (s.threads u).results, r ∈ ((s.setThread t { s.threads t with phase := .inside call n c script 0 (.ok ()) }).threads u).results := by
        intro u r hr
        by_cases hu : u = t
        · subst hu; rw [disk_self]; exact hr
        · rw [disk_ne _ _ _ _ hu]; exact hr
      have hra : s.ra = some w.ra := by
        obtain ⟨_, _, -, -, -, x, -⟩ := d1
        exact x
      refine ⟨order, ?_, ?_, ?_, c7, c8, w, c4, ?_⟩
      · intro u
        by_cases hu : u = t
        · subst hu
          have := c1 u
          rw [hp] at this
          simp only [MtDisk.setThread, if_true, MtPhase.current]
          simpa [MtPhase.current] using this
        · simp only [MtDisk.setThread, if_neg hu]; exact c1 u
      · intro u
        by_cases hu : u = t
        · subst hu
          simp only [MtDisk.setThread, if_true]
          exact c2 u
        · simp only [MtDisk.setThread, if_neg hu]; exact c2 u
      · intro u
        by_cases hu : u = t
        · subst hu; simp only [MtDisk.setThread, if_true]; trivial
        · simp only [MtDisk.setThread, if_neg hu]; exact c3 u
      · simp only
        refine ⟨⟨call, n, c, script, 0, .ok (), by simp [MtDisk.setThread], hAc, recs, parts, size, s.stream, r1, r2, ?_, ?_⟩, ?_⟩
        · rw [← hra]
          exact d1.mono mono
        · show runDisk script s.stream s.ra 0 (.ok ()) = _
          rw [hra, r3]
        · intro u hu
          simp only [MtDisk.setThread, if_neg hu]; exact d3 u
  | inside call n c script pos out =>
    obtain ⟨c1, c2, c3, c7, c8, w, c4, c6⟩ := h
    have hown : s.owner = some t := by
      cases ho : s.owner with
      | none => rw [ho] at c6; have := c6.2 t; rw [hp] at this; simp [MtPhase.inCall] at this
      | some u =>
        rw [ho] at c6
        by_cases hu : t = u
        · rw [hu]
        · have := c6.2 t hu; rw [hp] at this; simp [MtPhase.inCall] at this
    rw [hown] at c6
    obtain ⟨⟨call', n', c', script', pos', out', e1, eA, recs, parts, size, stream0, r1, r2, r3, e2⟩, e3⟩ := c6
    rw [hp] at e1
    cases e1
    cases script with
    | nil =>
      simp only
      -- the threads after that
      have th1 : ({ s.setThread t { s.threads t with phase := .idle, results := (s.threads t).results ++ [(call, out)] } with owner := none } : MtDisk).threads t =
          { s.threads t with phase := .idle, results := (s.threads t).results ++ [(call, out)] } := disk_self ..
      have th2 : ∀ u, u ≠ t → ({ s.setThread t { s.threads t with phase := .idle, results := (s.threads t).results ++ [(call, out)] } with owner := none } : MtDisk).threads u = s.threads u :=
        fun u hu => disk_ne _ _ _ _ hu
      have k1 : ∀ u, (({ s.setThread t { s.threads t with phase := .idle, results := (s.threads t).results ++ [(call, out)] } with owner := none } : MtDisk).threads u).results.map (·.1) ++
          (({ s.setThread t { s.threads t with phase := .idle, results := (s.threads t).results ++ [(call, out)] } with owner := none } : MtDisk).threads u).phase.current ++
          (({ s.setThread t { s.threads t with phase := .idle, results := (s.threads t).results ++ [(call, out)] } with owner := none } : MtDisk).threads u).todo = prog u := by
        intro u
        by_cases hu : u = t
        · subst hu
          have := c1 u
          rw [hp] at this
          rw [th1]
          simpa [MtPhase.current] using this
        · rw [th2 u hu]; exact c1 u
      have k3 : ∀ u, (({ s.setThread t { s.threads t with phase := .idle, results := (s.threads t).results ++ [(call, out)] } with owner := none } : MtDisk).threads u).phase.Right codec std A := by
        intro u
        by_cases hu : u = t
        · subst hu; rw [th1]; trivial
        · rw [th2 u hu]; exact c3 u
      have k4 : ∀ u, (({ s.setThread t { s.threads t with phase := .idle, results := (s.threads t).results ++ [(call, out)] } with owner := none } : MtDisk).threads u).phase.inCall = [] := by
        intro u
        by_cases hu : u = t
        · subst hu; rw [th1]; rfl
        · rw [th2 u hu]; exact e3 u hu
      have mono : ∀ u, ∀ r ∈ (s.threads u).results, r ∈ (({ s.setThread t { s.threads t with phase := .idle, results := (s.threads t).results ++ [(call, out)] } with owner := none } : MtDisk).threads u).results := by
        intro u r hr
        by_cases hu : u = t
        · subst hu; rw [th1]; exact List.mem_append_left _ hr
        · rw [th2 u hu]; exact hr
      have fails : ∀ e, out = .error e → ∀ u, turnsOf u order = succeeded (({ s.setThread t { s.threads t with phase := .idle, results := (s.threads t).results ++ [(call, out)] } with owner := none } : MtDisk).threads u) := by
        intro e he u
        by_cases hu : u = t
        · subst hu
          rw [th1, he, succeeded_error]
          exact c2 u
        · rw [th2 u hu]; exact c2 u
      obtain ⟨q, st, q1, q2, q3, q4, q5⟩ := r3
      have hw : w = ⟨some st, w.ra⟩ := by rw [← q3]
      rcases q5 with ⟨q5, q6⟩ | ⟨q5, q6⟩
      · obtain ⟨w', st', q', a1, a2, a3, a4, a5, a6⟩ := script_disk codec std call n c recs parts r1 r2 size q6 q5 w.ra
        rw [← hw] at a1
        have hnew : putEach codec std w0 ((order ++ [(⟨t, call, n, c⟩ : Turn)]).map Turn.put) = .ok w' := by
          rw [List.map_append]
          exact putEach_snoc codec std w0 w w' _ _ c4 a1
        rw [q1] at e2
        cases hg : q'.good with
        | true =>
          rw [a5 hg] at e2
          simp only [runDisk, Prod.mk.injEq] at e2
          obtain ⟨e4, e5, rfl⟩ := e2
          refine ⟨order ++ [⟨t, call, n, c⟩], k1, ?_, k3, c7, ?_, w', hnew, ?_, k4⟩
          · intro u
            rw [turnsOf_snoc]
            by_cases hu : u = t
            · subst hu
              rw [th1, succeeded_ok, c2]
              simp
            · rw [th2 u hu, if_neg (Ne.symm hu), List.append_nil]
              exact c2 u
          · intro u hu
            rcases List.mem_append.1 hu with hu | hu
            · exact c8 u hu
            · simp at hu; subst hu; exact eA
          · exact ⟨q', st', e4, a3.trans q2, a2, e5, .inl ⟨hg, a4⟩⟩
        | false =>
          rw [a6 hg] at e2
          simp only [runDisk, Prod.mk.injEq] at e2
          obtain ⟨e4, e5, e6⟩ := e2
          refine ⟨order, k1, fails _ e6, k3, c7, c8, w, c4, ?_, k4⟩
          refine ⟨q', st, e4, a3.trans q2, q3, e5, .inr ⟨hg, ?_, ⟨t, call, n, c⟩, w', st', hnew, a2, a4, eA, ?_⟩⟩
          · rw [← q2]
            exact (twin_good_iff q6).1 q5
          · show _ ∈ (({ s.setThread t _ with owner := none } : MtDisk).threads t).results
            rw [th1, e6]
            simp
      · rw [q1, script_full call parts size q5] at e2
        simp only [runDisk, Prod.mk.injEq] at e2
        obtain ⟨e4, e5, e6⟩ := e2
        refine ⟨order, k1, fails _ e6, k3, c7, c8, w, c4, ?_, k4⟩
        refine DiskRest.mono ⟨q, st, e4, q2, q3, e5, .inr ⟨q5, q6⟩⟩ mono
    | cons i script =>
      simp only
      have after : ∀ (ph : MtPhase) (st : Option LimStream) (ra : Option RaMgr) (mb : Nat) (script' : List MtStep) (pos' : Nat) (out' : Except Err Unit), ph = .inside call n c script' pos' out' →
          runDisk script' st ra pos' out' = runDisk (call.script parts size) stream0 (some w.ra) 0 (.ok ()) →
          DiskInv codec std A w0 limit prog { s.setThread t { s.threads t with phase := ph } with stream := st, ra := ra, maxBuf := mb } order := by
        intro ph st ra mb script' pos' out' hph hrun
        have th1 : (s.setThread t { s.threads t with phase := ph }).threads t = { s.threads t with phase := ph } := disk_self ..
        have th2 : ∀ u, u ≠ t → (s.setThread t { s.threads t with phase := ph }).threads u = s.threads u := fun u hu => disk_ne _ _ _ _ hu
        refine ⟨?_, ?_, ?_, c7, c8, w, c4, ?_⟩
        · intro u
          show ((s.setThread t { s.threads t with phase := ph }).threads u).results.map (·.1) ++ ((s.setThread t { s.threads t with phase := ph }).threads u).phase.current ++
            ((s.setThread t { s.threads t with phase := ph }).threads u).todo = _
          by_cases hu : u = t
          · subst hu
            have := c1 u
            rw [hp] at this
            rw [th1, hph]
            exact this
          · rw [th2 u hu]; exact c1 u
        · intro u
          show _ = succeeded ((s.setThread t { s.threads t with phase := ph }).threads u)
          by_cases hu : u = t
          · subst hu; rw [th1]; exact c2 u
          · rw [th2 u hu]; exact c2 u
        · intro u
          show ((s.setThread t { s.threads t with phase := ph }).threads u).phase.Right codec std A
          by_cases hu : u = t
          · subst hu; rw [th1, hph]; trivial
          · rw [th2 u hu]; exact c3 u
        · show match s.owner with
            | none => _
            | some u => _
          rw [hown]
          refine ⟨⟨call, n, c, script', pos', out', ?_, eA, recs, parts, size, stream0, r1, r2, r3.mono ?_, hrun⟩, ?_⟩
          · show ((s.setThread t { s.threads t with phase := ph }).threads t).phase = _
            rw [th1, hph]
          · intro u r hr
            show r ∈ ((s.setThread t { s.threads t with phase := ph }).threads u).results
            by_cases hu : u = t
            · subst hu; rw [th1]; exact hr
            · rw [th2 u hu]; exact hr
          · intro u hu
            show ((s.setThread t { s.threads t with phase := ph }).threads u).phase.inCall = []
            rw [th2 u hu]; exact e3 u hu
      unfold runDisk at e2
      generalize hi : i.execDisk s.stream s.ra pos = x at e2 ⊢
      obtain ⟨st, ra, pos', out'⟩ := x
      cases out' with
      | error e => exact ⟨order, after _ st ra s.maxBuf [] pos' (.error e) rfl e2⟩
      | ok u => exact ⟨order, after _ st ra _ script pos' out rfl e2⟩

theorem DiskInv.run {codec : Codec} {std : Std Pid} {A : Bool → Prop} {w0 : Writer} {limit : Nat} {prog : Nat → List MtCall} {s : MtDisk} {order : List Turn} (h : DiskInv codec std A w0 limit prog s order)
    (schedule : List MtChoice) (hA : ∀ n, .level n ∈ schedule → A (n != 0)) : ∃ order', DiskInv codec std A w0 limit prog (s.run codec std schedule) order' := by
  induction schedule generalizing s order with
  | nil => exact ⟨order, h⟩
  | cons c schedule ih =>
    unfold MtDisk.run
    rw [List.foldl_cons]
    cases c with
    | thread t =>
      obtain ⟨order', h'⟩ := h.step t
      exact ih h' (fun n hn => hA n (List.mem_cons_of_mem _ hn))
    | level n =>
      exact ih (order := order) ⟨h.calls, h.turns, h.right, hA n (List.mem_cons_self ..), h.flags, h.seq⟩ (fun n hn => hA n (List.mem_cons_of_mem _ hn))

/-! ## Calls that succeed -/

/-- The only reason for an exception is that the disk is full. -/
def FineDisk (s : MtDisk) : Prop := ∀ q, s.stream = some q → q.good = true → ∀ t, ∀ r ∈ (s.threads t).results, r.2 = .ok ()

theorem execDisk_good {i : MtStep} {st st' : Option LimStream} {ra ra' : Option RaMgr} {pos pos' : Nat} {r : Except Err Unit} (h : i.execDisk st ra pos = (st', ra', pos', r)) {q' : LimStream}
    (hq : st' = some q') (hg : q'.good = true) : ∃ q, st = some q ∧ q.good = true := by
  subst hq
  cases i with
  | check => simp only [MtStep.execDisk, Prod.mk.injEq] at h; exact ⟨q', h.1, hg⟩
  | tell =>
    cases st with
    | none => simp [MtStep.execDisk] at h
    | some t =>
      simp only [MtStep.execDisk] at h
      split at h <;> simp only [Prod.mk.injEq, Option.some.injEq] at h <;> exact ⟨t, rfl, by rw [h.1]; exact hg⟩
  | write b =>
    cases st with
    | none => simp [MtStep.execDisk] at h
    | some t =>
      simp only [MtStep.execDisk, Prod.mk.injEq, Option.some.injEq] at h
      refine ⟨t, rfl, ?_⟩
      cases ht : t.good with
      | true => rfl
      | false =>
        have : t.write b = t := by simp [LimStream.write, ht]
        rw [← h.1, this, ht] at hg
        cases hg
  | add k =>
    cases ra with
    | none => simp only [MtStep.execDisk, Prod.mk.injEq] at h; exact ⟨q', h.1, hg⟩
    | some m => simp only [MtStep.execDisk, Prod.mk.injEq] at h; exact ⟨q', h.1, hg⟩
  | grow n => simp only [MtStep.execDisk, Prod.mk.injEq] at h; exact ⟨q', h.1, hg⟩

theorem FineDisk.local {s : MtDisk} (h : FineDisk s) (t : Nat) (th : MtThread) (h1 : ∀ q, s.stream = some q → q.good = true → ∀ r ∈ th.results, r.2 = .ok ()) : FineDisk (s.setThread t th) := by
  intro q hq hg u
  by_cases hu : u = t
  · subst hu; rw [disk_self]; exact h1 q hq hg
  · rw [disk_ne _ _ _ _ hu]; exact h q hq hg u

theorem FineDisk.step {codec : Codec} (hcodec : Lossless codec) {std : Std Pid} {A : Bool → Prop} {w0 : Writer} {limit : Nat} {prog : Nat → List MtCall} {s : MtDisk} {order : List Turn}
    (hi : DiskInv codec std A w0 limit prog s order) (hp : ∀ t, ∀ call ∈ prog t, ∀ c, (call.put 0).Ok codec std c) (h : FineDisk s) (t : Nat) : FineDisk (s.step codec std t) := by
  have hmem : ∀ call ∈ (s.threads t).phase.current, ∀ c, (call.put 0).Ok codec std c := by
    intro call hc
    apply hp t call
    rw [← hi.calls t]
    exact List.mem_append_left _ (List.mem_append_right _ hc)
  unfold MtDisk.step
  simp only
  cases hph : (s.threads t).phase with
  | idle =>
    simp only
    cases ht : (s.threads t).todo with
    | nil => exact h
    | cons call todo => exact h.local t _ (fun q hq hg => h q hq hg t)
  | sized call n =>
    rw [hph] at hmem
    obtain ⟨recs, h1, -⟩ := call_packs codec hcodec std call n (hmem call (by simp [MtPhase.current]))
    simp only [h1]
    exact h.local t _ (fun q hq hg => h q hq hg t)
  | encoded call n recs =>
    rw [hph] at hmem
    obtain ⟨recs', h1, h2⟩ := call_packs codec hcodec std call n (hmem call (by simp [MtPhase.current]))
    have hr := hi.right t
    rw [hph] at hr
    have hr : encodeAll n (call.jobs std) = .ok recs := hr
    rw [h1] at hr
    cases hr
    obtain ⟨parts, h3⟩ := h2 (s.level != 0)
    simp only [h3]
    exact h.local t _ (fun q hq hg => h q hq hg t)
  | waiting call n c script =>
    simp only
    cases s.owner with
    | some u => exact h
    | none =>
      have := h.local t { s.threads t with phase := .inside call n c script 0 (.ok ()) } (fun q hq hg => h q hq hg t)
      exact fun q hq hg => this q hq hg
  | inside call n c script pos out =>
    obtain ⟨c1, c2, c3, c7, c8, w, c4, c6⟩ := hi
    have hown : s.owner = some t := by
      cases ho : s.owner with
      | none => rw [ho] at c6; have := c6.2 t; rw [hph] at this; simp [MtPhase.inCall] at this
      | some u =>
        rw [ho] at c6
        by_cases hu : t = u
        · rw [hu]
        · have := c6.2 t hu; rw [hph] at this; simp [MtPhase.inCall] at this
    rw [hown] at c6
    obtain ⟨⟨call', n', c', script', pos', out', e1, eA, recs, parts, size, stream0, r1, r2, r3, e2⟩, e3⟩ := c6
    rw [hph] at e1
    cases e1
    cases script with
    | nil =>
      have hout : ∀ q, s.stream = some q → q.good = true → out = .ok () := by
        intro q' hq' hg'
        obtain ⟨q, st, q1, q2, q3, q4, q5⟩ := r3
        rw [q1] at e2
        rcases q5 with ⟨q5, q6⟩ | ⟨q5, q6⟩
        · obtain ⟨w', st', q'', a1, a2, a3, a4, a5, a6⟩ := script_disk codec std call n c recs parts r1 r2 size q6 q5 w.ra
          cases hg : q''.good with
          | true =>
            rw [a5 hg] at e2
            simp only [runDisk, Prod.mk.injEq] at e2
            exact e2.2.2
          | false =>
            rw [a6 hg] at e2
            simp only [runDisk, Prod.mk.injEq] at e2
            rw [hq'] at e2
            rw [Option.some.inj e2.1, hg] at hg'
            cases hg'
        · rw [script_full call parts size q5] at e2
          simp only [runDisk, Prod.mk.injEq] at e2
          rw [hq'] at e2
          rw [Option.some.inj e2.1, q5] at hg'
          cases hg'
      have := h.local t { s.threads t with phase := .idle, results := (s.threads t).results ++ [(call, out)] } (by
        intro q hq hg r hr
        rcases List.mem_append.1 hr with hr | hr
        · exact h q hq hg t r hr
        · simp at hr; rw [hr]; exact hout q hq hg)
      exact fun q hq hg => this q hq hg
    | cons i script =>
      simp only
      generalize hx : i.execDisk s.stream s.ra pos = x
      obtain ⟨st, ra, pos', out'⟩ := x
      have key : ∀ ph, ∀ q, st = some q → q.good = true → ∀ u, ∀ r ∈ ((s.setThread t { s.threads t with phase := ph }).threads u).results, r.2 = .ok () := by
        intro ph q hq hg u
        obtain ⟨q0, z1, z2⟩ := execDisk_good hx hq hg
        exact (h.local t { s.threads t with phase := ph } (fun q hq hg => h q hq hg t)) q0 z1 z2 u
      cases out' with
      | error e => exact key _
      | ok u => exact key _

theorem FineDisk.run {codec : Codec} (hcodec : Lossless codec) {std : Std Pid} {A : Bool → Prop} {w0 : Writer} {limit : Nat} {prog : Nat → List MtCall} {s : MtDisk} {order : List Turn}
    (hi : DiskInv codec std A w0 limit prog s order) (hp : ∀ t, ∀ call ∈ prog t, ∀ c, (call.put 0).Ok codec std c) (h : FineDisk s) (schedule : List MtChoice)
    (hA : ∀ n, .level n ∈ schedule → A (n != 0)) : FineDisk (s.run codec std schedule) := by
  induction schedule generalizing s order with
  | nil => exact h
  | cons c schedule ih =>
    unfold MtDisk.run
    rw [List.foldl_cons]
    cases c with
    | thread t =>
      obtain ⟨order', h'⟩ := hi.step t
      exact ih h' (h.step hcodec hi hp t) (fun n hn => hA n (List.mem_cons_of_mem _ hn))
    | level n => exact ih (order := order) ⟨hi.calls, hi.turns, hi.right, hA n (List.mem_cons_self ..), hi.flags, hi.seq⟩ h (fun n hn => hA n (List.mem_cons_of_mem _ hn))

/-! ## After the disk became full -/

/-- A thread that will not succeed. -/
def MtPhase.Hopeless : MtPhase → Prop
  | .waiting _ _ _ script => ∃ rest, script = .check :: .tell :: rest
  | .inside _ _ _ script _ out => (script = [] ∧ ∃ e, out = .error e) ∨ (∃ rest, script = .tell :: rest) ∨ ∃ rest, script = .check :: .tell :: rest
  | _ => True

structure Lost (q : LimStream) (ra : Option RaMgr) (base : Nat → List MtCall) (s : MtDisk) : Prop where
  stream : s.stream = some q
  ra : s.ra = ra
  done : ∀ t, succeeded (s.threads t) = base t
  hopeless : ∀ t, (s.threads t).phase.Hopeless

theorem Lost.local {q : LimStream} {ra : Option RaMgr} {base : Nat → List MtCall} {s s' : MtDisk} (h : Lost q ra base s) (t : Nat) (th : MtThread) (h0 : s'.threads = (s.setThread t th).threads)
    (h1 : succeeded th = succeeded (s.threads t)) (h2 : th.phase.Hopeless) (h3 : s'.stream = s.stream) (h4 : s'.ra = s.ra) : Lost q ra base s' := by
  refine ⟨h3.trans h.stream, h4.trans h.ra, fun u => ?_, fun u => ?_⟩
  · rw [h0]
    by_cases hu : u = t
    · subst hu; rw [disk_self, h1]; exact h.done u
    · rw [disk_ne _ _ _ _ hu]; exact h.done u
  · rw [h0]
    by_cases hu : u = t
    · subst hu; rw [disk_self]; exact h2
    · rw [disk_ne _ _ _ _ hu]; exact h.hopeless u

theorem Lost.step {q : LimStream} (hq : q.good = false) {ra : Option RaMgr} {base : Nat → List MtCall} {s : MtDisk} (h : Lost q ra base s) (codec : Codec) (std : Std Pid) (t : Nat) :
    Lost q ra base (s.step codec std t) := by
  unfold MtDisk.step
  simp only
  have hh := h.hopeless t
  cases hp : (s.threads t).phase with
  | idle =>
    simp only
    cases ht : (s.threads t).todo with
    | nil => exact h
    | cons call todo => exact h.local t { s.threads t with todo := todo, phase := .sized call s.maxBuf } rfl rfl trivial rfl rfl
  | sized call n =>
    simp only
    cases encodeAll n (call.jobs std) with
    | error e => exact h.local t { s.threads t with phase := .idle, results := (s.threads t).results ++ [(call, .error e)] } rfl (succeeded_error ..) trivial rfl rfl
    | ok recs => exact h.local t { s.threads t with phase := .encoded call n recs } rfl rfl trivial rfl rfl
  | encoded call n recs =>
    simp only
    cases packAll codec (s.level != 0) recs with
    | error e => exact h.local t { s.threads t with phase := .idle, results := (s.threads t).results ++ [(call, .error e)] } rfl (succeeded_error ..) trivial rfl rfl
    | ok parts =>
      exact h.local t { s.threads t with phase := .waiting call n (s.level != 0) (call.script parts ((recs.getLast?.map (·.2.length)).getD 0)) } rfl rfl ⟨_, rfl⟩ rfl rfl
  | waiting call n c script =>
    rw [hp] at hh
    simp only
    cases s.owner with
    | some u => exact h
    | none => exact h.local t { s.threads t with phase := .inside call n c script 0 (.ok ()) } rfl rfl (.inr (.inr hh)) rfl rfl
  | inside call n c script pos out =>
    rw [hp] at hh
    rcases hh with ⟨rfl, e, rfl⟩ | ⟨rest, rfl⟩ | ⟨rest, rfl⟩
    · exact h.local t { s.threads t with phase := .idle, results := (s.threads t).results ++ [(call, .error e)] } rfl (succeeded_error ..) trivial rfl rfl
    · simp only [MtStep.execDisk, h.stream, hq, Bool.not_false, if_true]
      exact h.local t { s.threads t with phase := .inside call n c [] pos (.error .badState) } rfl rfl (.inl ⟨rfl, _, rfl⟩) h.stream.symm rfl
    · simp only [MtStep.execDisk, h.stream, Option.isNone_some, Bool.false_eq_true, if_false]
      exact h.local t { s.threads t with phase := .inside call n c (.tell :: rest) pos out } rfl rfl (.inr (.inl ⟨_, rfl⟩)) h.stream.symm rfl

theorem Lost.run {q : LimStream} (hq : q.good = false) {ra : Option RaMgr} {base : Nat → List MtCall} (codec : Codec) (std : Std Pid) (schedule : List MtChoice) :
    ∀ {s : MtDisk}, Lost q ra base s → Lost q ra base (s.run codec std schedule) := by
  induction schedule with
  | nil => exact fun h => h
  | cons c schedule ih =>
    intro s h
    unfold MtDisk.run
    rw [List.foldl_cons]
    cases c with
    | thread t => exact ih (h.step hq codec std t)
    | level n => exact ih (s := { s with level := n }) ⟨h.stream, h.ra, h.done, h.hopeless⟩

/-! ## The event map -/

theorem put_map {codec : Codec} {std : Std Pid} {c : Bool} {w w' : Writer} (p : Put) (h : p.call codec std c w = (.ok (), w')) : w'.ra.map.map ≠ [] := by
  cases p with
  | run hd buf =>
    simp only [Put.call, Writer.writeRunHeader] at h
    split at h
    · cases h
    · split at h
      · cases h
      · simp only [Prod.mk.injEq, true_and] at h
        rw [← h]
        exact add_ne_nil _ _ _
  | event hd cols buf =>
    simp only [Put.call, Writer.writeEvent] at h
    split at h
    · cases h
    · split at h
      · cases h
      · split at h
        · cases h
        · simp only [Prod.mk.injEq, true_and] at h
          rw [← h]
          exact add_ne_nil _ _ _

theorem putEach_map {codec : Codec} {std : Std Pid} (ps : List (Bool × Put)) : ∀ {w w' : Writer}, putEach codec std w ps = .ok w' → (w.ra.map.map ≠ [] ∨ ps ≠ []) → w'.ra.map.map ≠ [] := by
  induction ps with
  | nil =>
    intro w w' h hn
    simp only [putEach, Except.ok.injEq] at h
    subst h
    simpa using hn
  | cons p ps ih =>
    intro w w' h _
    unfold putEach at h
    cases hq : p.2.call codec std p.1 w with
    | mk r v =>
      rw [hq] at h
      cases r with
      | error e => cases h
      | ok u => exact ih h (.inl (put_map _ hq))

/-- What is added to the index by a call that succeeds. -/
theorem call_adds {codec : Codec} {std : Std Pid} {c : Bool} {w w' : Writer} (p : Put) (h : p.call codec std c w = (.ok (), w')) :
    ∃ n : W64, w'.ra.map = w.ra.map.addAll [(p.key, n)] := by
  cases p with
  | run hd buf =>
    simp only [Put.call, Writer.writeRunHeader] at h
    split at h
    · cases h
    · split at h
      · cases h
      · simp only [Prod.mk.injEq, true_and] at h
        rw [← h]
        exact ⟨_, rfl⟩
  | event hd cols buf =>
    simp only [Put.call, Writer.writeEvent] at h
    split at h
    · cases h
    · split at h
      · cases h
      · split at h
        · cases h
        · simp only [Prod.mk.injEq, true_and] at h
          rw [← h]
          exact ⟨_, rfl⟩

theorem putEach_adds {codec : Codec} {std : Std Pid} (ps : List (Bool × Put)) : ∀ {w w' : Writer}, putEach codec std w ps = .ok w' →
    ∃ l : List (RunEvent × W64), w'.ra.map = w.ra.map.addAll l ∧ l.map (·.1) = ps.map (·.2.key) := by
  induction ps with
  | nil =>
    intro w w' h
    simp only [putEach, Except.ok.injEq] at h
    subst h
    exact ⟨[], rfl, rfl⟩
  | cons p ps ih =>
    intro w w' h
    unfold putEach at h
    cases hq : p.2.call codec std p.1 w with
    | mk r v =>
      rw [hq] at h
      cases r with
      | error e => cases h
      | ok u =>
        obtain ⟨n, hn⟩ := call_adds _ hq
        obtain ⟨l, l1, l2⟩ := ih h
        refine ⟨(p.2.key, n) :: l, ?_, by simp [l2]⟩
        rw [l1, hn]
        rfl

/-- Closing a stream that is bad: nothing is thrown if the index is empty; else the state is noticed. -/
theorem close_bad {w : LimWriter} {t : LimStream} (h : w.stream = some t) (hg : t.good = false) :
    (w.ra.map.map = [] → w.close.1 = .ok ()) ∧
    (w.ra.map.map ≠ [] → Writable indexName [w.ra.map.block] → w.close.1 = .error .badState) := by
  constructor
  · intro he
    unfold LimWriter.close RaMgr.limWriteRandomAccessRecords
    simp [h, he]
  · intro hne hw
    obtain ⟨data, num, τ, -, -, -, h1⟩ := writeRecord_rec indexName w.ra.buf [w.ra.map.block] 0 hw
    obtain ⟨bytes, this⟩ : ∃ bytes, w.ra.limWriteOne t indexName w.ra.map.block = (.error .badState, t, { w.ra with buf := bytes }) := by
      unfold RaMgr.limWriteOne limWriteRecordTo
      rw [h1]
      simp only [hg]
      exact ⟨_, rfl⟩
    unfold LimWriter.close RaMgr.limWriteRandomAccessRecords
    simp [h, hne, this]

/-! ## All threads come to an end -/

/-- Steps of threads. -/
def MtDisk.steps (codec : Codec) (std : Std Pid) (s : MtDisk) (ts : List Nat) : MtDisk := ts.foldl (fun s t => s.step codec std t) s

theorem steps_run (codec : Codec) (std : Std Pid) (s : MtDisk) (a : List MtChoice) (ts : List Nat) : s.run codec std (a ++ ts.map .thread) = (s.run codec std a).steps codec std ts := by
  simp only [MtDisk.run, MtDisk.steps, List.foldl_append, List.foldl_map]
  rfl

/-- The steps of one thread until it releases the mutex. -/
theorem disk_finish_inside (codec : Codec) (std : Std Pid) (u : Nat) (call : MtCall) (n : Nat) (c : Bool) (script : List MtStep) :
    ∀ (s : MtDisk) (pos : Nat) (out : Except Err Unit), s.owner = some u → (s.threads u).phase = .inside call n c script pos out →
    ∃ sched, (s.steps codec std sched).owner = none ∧ ((s.steps codec std sched).threads u).phase = .idle ∧
      ((s.steps codec std sched).threads u).todo = (s.threads u).todo ∧ ∀ v, v ≠ u → (s.steps codec std sched).threads v = s.threads v := by
  have hnil : ∀ (s : MtDisk) (pos : Nat) (out : Except Err Unit), s.owner = some u → (s.threads u).phase = .inside call n c [] pos out →
      (s.step codec std u).owner = none ∧ ((s.step codec std u).threads u).phase = .idle ∧
      ((s.step codec std u).threads u).todo = (s.threads u).todo ∧ ∀ v, v ≠ u → (s.step codec std u).threads v = s.threads v := by
    intro s pos out h1 h2
    unfold MtDisk.step
    simp only [h2]
    refine ⟨trivial, ?_, ?_, ?_⟩
    · simp [MtDisk.setThread]
    · simp [MtDisk.setThread]
    · intro v hv; simp [MtDisk.setThread, hv]
  induction script with
  | nil =>
    intro s pos out h1 h2
    exact ⟨[u], hnil s pos out h1 h2⟩
  | cons i script ih =>
    intro s pos out h1 h2
    cases hx : i.execDisk s.stream s.ra pos with
    | mk st x =>
      obtain ⟨ra, pos', out'⟩ := x
      cases out' with
      | ok _ =>
        have e : s.step codec std u = { s.setThread u { s.threads u with phase := .inside call n c script pos' out } with stream := st, ra := ra, maxBuf := i.grown s.maxBuf } := by
          unfold MtDisk.step
          simp only [h2, hx]
        obtain ⟨sched, a1, a2, a3, a4⟩ := ih (s.step codec std u) pos' out (by rw [e]; exact h1) (by rw [e]; simp [MtDisk.setThread])
        refine ⟨u :: sched, a1, a2, a3.trans ?_, fun v hv => (a4 v hv).trans ?_⟩
        · rw [e]; simp [MtDisk.setThread]
        · rw [e]; simp [MtDisk.setThread, hv]
      | error er =>
        have e : s.step codec std u = { s.setThread u { s.threads u with phase := .inside call n c [] pos' (.error er) } with stream := st, ra := ra } := by
          unfold MtDisk.step
          simp only [h2, hx]
        obtain ⟨a1, a2, a3, a4⟩ := hnil (s.step codec std u) pos' (.error er) (by rw [e]; exact h1) (by rw [e]; simp [MtDisk.setThread])
        refine ⟨[u, u], a1, a2, a3.trans ?_, fun v hv => (a4 v hv).trans ?_⟩
        · rw [e]; simp [MtDisk.setThread]
        · rw [e]; simp [MtDisk.setThread, hv]

theorem disk_run_append (codec : Codec) (std : Std Pid) (s : MtDisk) (a b : List Nat) : s.steps codec std (a ++ b) = (s.steps codec std a).steps codec std b := by
  simp [MtDisk.steps, List.foldl_append]

/-- Nobody has the mutex, and `t` finishes its call. -/
theorem disk_finish_call (codec : Codec) (std : Std Pid) (t : Nat) (s : MtDisk) (h1 : s.owner = none) (h2 : (s.threads t).phase.inCall = []) :
    ∃ sched, (s.steps codec std sched).owner = none ∧ ((s.steps codec std sched).threads t).phase = .idle ∧
      ((s.steps codec std sched).threads t).todo = (s.threads t).todo ∧ ∀ v, v ≠ t → (s.steps codec std sched).threads v = s.threads v := by
  have waiting : ∀ (s : MtDisk) call n c script, s.owner = none → (s.threads t).phase = .waiting call n c script →
      ∃ sched, (s.steps codec std sched).owner = none ∧ ((s.steps codec std sched).threads t).phase = .idle ∧
      ((s.steps codec std sched).threads t).todo = (s.threads t).todo ∧ ∀ v, v ≠ t → (s.steps codec std sched).threads v = s.threads v := by
    intro s call n c script h1 h2
    have e : s.step codec std t = { s.setThread t { s.threads t with phase := .inside call n c script 0 (.ok ()) } with owner := some t } := by
      unfold MtDisk.step
      simp only [h2, h1]
    obtain ⟨sched, a1, a2, a3, a4⟩ := disk_finish_inside codec std t call n c script (s.step codec std t) 0 (.ok ()) (by rw [e]) (by rw [e]; simp [MtDisk.setThread])
    refine ⟨t :: sched, a1, a2, a3.trans ?_, fun v hv => (a4 v hv).trans ?_⟩
    · rw [e]; simp [MtDisk.setThread]
    · rw [e]; simp [MtDisk.setThread, hv]
  have encoded : ∀ (s : MtDisk) call n recs, s.owner = none → (s.threads t).phase = .encoded call n recs →
      ∃ sched, (s.steps codec std sched).owner = none ∧ ((s.steps codec std sched).threads t).phase = .idle ∧
      ((s.steps codec std sched).threads t).todo = (s.threads t).todo ∧ ∀ v, v ≠ t → (s.steps codec std sched).threads v = s.threads v := by
    intro s call n recs h1 h2
    cases hp : packAll codec (s.level != 0) recs with
    | error er =>
      refine ⟨[t], ?_⟩
      show (s.step codec std t).owner = none ∧ ((s.step codec std t).threads t).phase = .idle ∧ ((s.step codec std t).threads t).todo = _ ∧ ∀ v, v ≠ t → (s.step codec std t).threads v = _
      unfold MtDisk.step
      simp only [h2, hp]
      refine ⟨h1, by simp [MtDisk.setThread], by simp [MtDisk.setThread], fun v hv => by simp [MtDisk.setThread, hv]⟩
    | ok parts =>
      have e : s.step codec std t = s.setThread t { s.threads t with phase := .waiting call n (s.level != 0) (call.script parts ((recs.getLast?.map (·.2.length)).getD 0)) } := by
        unfold MtDisk.step
        simp only [h2, hp]
      obtain ⟨sched, a1, a2, a3, a4⟩ := waiting (s.step codec std t) call n _ _ (by rw [e]; exact h1) (by rw [e]; simp [MtDisk.setThread]; exact ⟨rfl, rfl⟩)
      refine ⟨t :: sched, a1, a2, a3.trans ?_, fun v hv => (a4 v hv).trans ?_⟩
      · rw [e]; simp [MtDisk.setThread]
      · rw [e]; simp [MtDisk.setThread, hv]
  cases hph : (s.threads t).phase with
  | idle => exact ⟨[], h1, hph, rfl, fun _ _ => rfl⟩
  | sized call n =>
    cases hp : encodeAll n (call.jobs std) with
    | error er =>
      refine ⟨[t], ?_⟩
      show (s.step codec std t).owner = none ∧ ((s.step codec std t).threads t).phase = .idle ∧ ((s.step codec std t).threads t).todo = _ ∧ ∀ v, v ≠ t → (s.step codec std t).threads v = _
      unfold MtDisk.step
      simp only [hph, hp]
      refine ⟨h1, by simp [MtDisk.setThread], by simp [MtDisk.setThread], fun v hv => by simp [MtDisk.setThread, hv]⟩
    | ok recs =>
      have e : s.step codec std t = s.setThread t { s.threads t with phase := .encoded call n recs } := by
        unfold MtDisk.step
        simp only [hph, hp]
      obtain ⟨sched, a1, a2, a3, a4⟩ := encoded (s.step codec std t) call n recs (by rw [e]; exact h1) (by rw [e]; simp [MtDisk.setThread])
      refine ⟨t :: sched, a1, a2, a3.trans ?_, fun v hv => (a4 v hv).trans ?_⟩
      · rw [e]; simp [MtDisk.setThread]
      · rw [e]; simp [MtDisk.setThread, hv]
  | encoded call n recs => exact encoded s call n recs h1 hph
  | waiting call n c script => exact waiting s call n c script h1 hph
  | inside call n c script pos out => rw [hph] at h2; simp [MtPhase.inCall] at h2

/-- It finishes all its calls. -/
theorem disk_finish_thread (codec : Codec) (std : Std Pid) (t : Nat) (todo : List MtCall) : ∀ s : MtDisk, s.owner = none → (s.threads t).phase.inCall = [] →
    (s.threads t).todo = todo →
    ∃ sched, (s.steps codec std sched).owner = none ∧ ((s.steps codec std sched).threads t).phase = .idle ∧
      ((s.steps codec std sched).threads t).todo = [] ∧ ∀ v, v ≠ t → (s.steps codec std sched).threads v = s.threads v := by
  induction todo with
  | nil =>
    intro s h1 h2 h3
    obtain ⟨sched, a1, a2, a3, a4⟩ := disk_finish_call codec std t s h1 h2
    exact ⟨sched, a1, a2, by rw [a3, h3], a4⟩
  | cons call todo ih =>
    intro s h1 h2 h3
    obtain ⟨sched, a1, a2, a3, a4⟩ := disk_finish_call codec std t s h1 h2
    rw [h3] at a3
    have e : (s.steps codec std sched).step codec std t =
        (s.steps codec std sched).setThread t { (s.steps codec std sched).threads t with todo := todo, phase := .sized call (s.steps codec std sched).maxBuf } := by
      conv => lhs; unfold MtDisk.step
      simp only [a2, a3]
    obtain ⟨sched', b1, b2, b3, b4⟩ := ih ((s.steps codec std sched).step codec std t) (by rw [e]; exact a1) (by rw [e, disk_self]; rfl) (by rw [e, disk_self])
    refine ⟨sched ++ t :: sched', ?_⟩
    rw [disk_run_append]
    refine ⟨b1, b2, b3, fun v hv => (b4 v hv).trans ?_⟩
    rw [e, disk_ne _ _ _ _ hv, a4 v hv]

theorem disk_finish_all (codec : Codec) (std : Std Pid) (N : Nat) : ∀ s : MtDisk, s.owner = none → (∀ t, (s.threads t).phase.inCall = []) →
    ∃ sched, (s.steps codec std sched).owner = none ∧ (∀ t, t < N → ((s.steps codec std sched).threads t).phase = .idle ∧ ((s.steps codec std sched).threads t).todo = []) ∧
      ∀ v, N ≤ v → (s.steps codec std sched).threads v = s.threads v := by
  induction N with
  | zero => intro s h1 h2; exact ⟨[], h1, fun t ht => absurd ht (Nat.not_lt_zero t), fun _ _ => rfl⟩
  | succ N ih =>
    intro s h1 h2
    obtain ⟨sched, a1, a2, a3⟩ := ih s h1 h2
    obtain ⟨sched', b1, b2, b3, b4⟩ := disk_finish_thread codec std N _ (s.steps codec std sched) a1 (by rw [a3 N (Nat.le_refl N)]; exact h2 N) rfl
    refine ⟨sched ++ sched', ?_⟩
    rw [disk_run_append]
    refine ⟨b1, ?_, ?_⟩
    · intro t ht
      by_cases e : t = N
      · subst e; exact ⟨b2, b3⟩
      · rw [b4 t e]; exact a2 t (by omega)
    · intro v hv
      rw [b4 v (by omega), a3 v (by omega)]

end Lcio
