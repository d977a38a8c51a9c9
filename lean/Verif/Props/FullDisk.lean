import Verif.Lcio.FullDiskLemmas
import Verif.Lcio.FullDiskClose
import Verif.Props.Crash
import Verif.Lcio.WriterUseLemmas
/-
A disk that becomes full: C112.
-/
namespace Props
open Sio Spec Lcio

/-- The end of a session, with the writer that was opened. -/
theorem disk_session (codec : Codec) (std : Std Pid) (limit : Nat) (s : Session) (hne : s.puts ≠ []) (w0 : Writer) (o : OStream) (h0 : w0.stream = some o) (hin : o.pos ≤ o.bytes.length)
    (hlim : o.bytes.length ≤ limit) (w1 w2 : Writer) (new : List Byte) (h1 : Spec.putAll codec std s.compress w0 s.puts = .ok w1) (h2 : w1.close = .ok (w2, some new)) :
    ∃ outs closed lw, (let r := ({ stream := some { s := o, limit := limit }, ra := w0.ra } : LimWriter).putAll codec std s.compress s.puts
        let c := r.2.close
        (r.1, c.1, c.2.1, c.2.2)) = (outs, closed, lw, some (new.take limit)) ∧
      outs.length = s.puts.length ∧
      (new.length ≤ limit → (∀ r ∈ outs, r = .ok ()) ∧ closed = .ok () ∧ lw.stream = none) ∧
      (limit < new.length → ∃ k ≤ s.puts.length, (∀ i, i < k → outs[i]? = some (.ok ())) ∧ (k < s.puts.length → outs[k]? = some (.error .ioFailure)) ∧
        (∀ i, k < i → i < s.puts.length → outs[i]? = some (.error .badState)) ∧
        (0 < k → ∃ e, closed = .error e ∧ Stuck lw) ∧
        ∃ v, Spec.putAll codec std s.compress w0 (s.puts.take k) = .ok v ∧ reached v ≤ limit) := by
  have tw : Twins ({ stream := some { s := o, limit := limit }, ra := w0.ra } : LimWriter) w0 { s := o, limit := limit } o :=
    ⟨rfl, h0, ⟨hin, fun _ => ⟨rfl, hlim⟩, fun hx => (by cases hx)⟩, fun _ => rfl⟩
  obtain ⟨t', s', b1, b2, b3, b4, k, b5, b6, b7, b8, b9, b10, b11, v, b12, b13⟩ := putAll_twins s.puts tw h1
  have hpos : 0 < s.puts.length := List.length_pos_of_ne_nil hne
  have hn : t'.good = true → (({ stream := some { s := o, limit := limit }, ra := w0.ra } : LimWriter).putAll codec std s.compress s.puts).2.ra.map.map ≠ [] := by
    intro hg
    exact b7 (by rw [(b8 hg).2]; exact hpos)
  have b2' : t'.limit = limit := b2
  obtain ⟨c1, c2, c3, c4, c5⟩ := close_twins b1 h2 hn
  rw [b2'] at c1 c2 c3 c5
  refine ⟨_, _, _, by dsimp only; rw [c1], b3, ?_, ?_⟩
  · intro hle
    obtain ⟨d1, d2, d3⟩ := c2 hle
    refine ⟨?_, d2, d3⟩
    intro r hr
    obtain ⟨i, hi, rfl⟩ := List.getElem_of_mem hr
    have := b6 i (by rw [(b8 d1).2, ← b3]; exact hi)
    rw [List.getElem?_eq_getElem hi] at this
    exact Option.some.inj this
  · intro hlt
    refine ⟨k, b5, b6, ?_, fun i hi hl => b11 i (.inr hi) hl, ?_, v, b12, ?_⟩
    · intro hk
      cases hg : t'.good with
      | true => have := (b8 hg).2; omega
      | false => exact (b9 hg rfl).2
    · intro hk
      cases hg : t'.good with
      | true =>
        have e := c3 hlt hg
        obtain ⟨t, t1, t2⟩ := c5 hlt _ e
        exact ⟨_, e, t, t1, t2, by rw [close_keep e]; exact b7 hk⟩
      | false =>
        obtain ⟨e, he⟩ := c4 hg (b7 hk)
        obtain ⟨t, t1, t2⟩ := c5 hlt _ he
        exact ⟨e, he, t, t1, t2, by rw [close_keep he]; exact b7 hk⟩
    · obtain ⟨u, u1, u2⟩ := b13 rfl
      unfold reached
      rw [u1]
      exact u2

/-- Opening the file for a session. -/
def openFor (codec : Codec) (w : Writer) (file : Option (List Byte)) : Except Err Writer := match file with
  | none => w.openNew
  | some bytes => w.openAppend codec (some bytes)

theorem run_opened (codec : Codec) (std : Std Pid) (w w0 : Writer) (file : Option (List Byte)) (s : Session) (h : openFor codec w file = .ok w0) :
    s.run codec std w file = (match Spec.putAll codec std s.compress w0 s.puts with
      | .error e => .error e
      | .ok w => w.close) ∧ ∀ n, s.after codec std w file n = Spec.putAll codec std s.compress w0 (s.puts.take n) := by
  unfold Session.run Session.after
  cases file with
  | none =>
    simp only [openFor] at h
    simp only [h, bind, Except.bind]
    refine ⟨?_, fun _ => trivial⟩
    cases Spec.putAll codec std s.compress w0 s.puts <;> rfl
  | some b =>
    simp only [openFor] at h
    simp only [h, bind, Except.bind]
    refine ⟨?_, fun _ => trivial⟩
    cases Spec.putAll codec std s.compress w0 s.puts <;> rfl

theorem run_not_opened (codec : Codec) (std : Std Pid) (w : Writer) (file : Option (List Byte)) (s : Session) (e : Err) (h : openFor codec w file = .error e) :
    s.run codec std w file = .error e := by
  unfold Session.run
  cases file with
  | none =>
    simp only [openFor] at h
    simp only [h, bind, Except.bind]
  | some b =>
    simp only [openFor] at h
    simp only [h, bind, Except.bind]

/-- **C112**: nothing is lost silently when the disk becomes full. A file that was made in some sessions (none if it does not exist) is opened by the writer, and there is only room for the file to have
`limit` bytes, at least as many as it has. The program writes run headers and events, goes on after exceptions, and closes the writer. If the file fits, all calls return normally. If it does not, the first `k`
calls return normally, the next one throws, all that come after it throw, and `close` throws (an I/O failure or a bad state) if anything was written (also if only the index did not fit); then the writer is lost: whatever is called after that
(opening new files, writing, closing), throws as well. In any case there is in the file the beginning of
what would be in it on a larger disk. A reader that opens it gets all of the earlier sessions and at least the first `k` things of this session, in order and as they were written, then null or an exception. -/
theorem C112_full_disk (cfg : RConfig) (hcodec : Lossless cfg.codec) (ss : List Session) (s : Session) (hs : SessionsOk cfg.codec cfg.std (ss ++ [s])) (hne : s.puts ≠ [])
    (hl : Loadable cfg (allPuts (ss ++ [s]))) (name : Str) :
    ∃ w old new, runSessions cfg.codec cfg.std {} none ss = .ok (w, old) ∧ fileAfter cfg.codec cfg.std (ss ++ [s]) = .ok (some new) ∧
      ∀ limit, (old.getD []).length ≤ limit → ∃ outs closed lw, sessionOnDisk cfg.codec cfg.std limit w.ra old s = .ok (outs, closed, lw, some (new.take limit)) ∧
        outs.length = s.puts.length ∧
        (new.length ≤ limit → (∀ r ∈ outs, r = .ok ()) ∧ closed = .ok ()) ∧
        (limit < new.length → ∃ k ≤ s.puts.length,
          (∀ i, i < k → outs[i]? = some (.ok ())) ∧ (k < s.puts.length → outs[k]? = some (.error .ioFailure)) ∧ (∀ i, k < i → i < s.puts.length → outs[i]? = some (.error .badState)) ∧
          (0 < k → (closed = .error .ioFailure ∨ closed = .error .badState) ∧ ∀ cs, ∀ r ∈ lw.steps cfg.codec cfg.std cs, ∃ e, r = .error e) ∧
          ∃ m, (allPuts ss).length + k ≤ m ∧ m ≤ (allPuts (ss ++ [s])).length ∧ ∃ r, Reader.openFiles cfg false [(name, new.take limit)] = (.ok (), r) ∧
            ∀ gs, gets cfg gs r = .ok (serve cfg gs (((allPuts (ss ++ [s])).take m).map fun p => (name, p))) ∨
              (none ∈ serve cfg gs (((allPuts (ss ++ [s])).take m).map fun p => (name, p)) ∧ ∃ e, gets cfg gs r = .error e ∧ (e = .noMarker ∨ e = .badState ∨ e = .ioFailure))) := by
  obtain ⟨w, old, new, h1, h2, h3⟩ := C65_crash_partial cfg hcodec ss s hs hne hl name
  refine ⟨w, old, new, h1, h2, fun limit hlim => ?_⟩
  obtain ⟨m, m1, m2, m3, r, o1, o2⟩ := h3 limit hlim
  have hrun : ∃ w', s.run cfg.codec cfg.std w old = .ok (w', some new) := by
    have e := runSessions_snoc cfg.codec cfg.std ss s {} none w old h1
    unfold fileAfter at h2
    rw [e] at h2
    cases hr : s.run cfg.codec cfg.std w old with
    | error e => rw [hr] at h2; cases h2
    | ok x =>
      obtain ⟨w', f⟩ := x
      rw [hr] at h2
      injection h2 with h2
      exact ⟨w', by rw [h2]⟩
  obtain ⟨w', hrun⟩ := hrun
  have hcr : crashed old new limit = new.take limit := by
    unfold crashed
    rw [List.drop_eq_nil_of_le hlim, List.append_nil]
  rw [hcr] at o1
  -- the writer that was opened
  obtain ⟨w0, p1⟩ : ∃ w0, openFor cfg.codec w old = .ok w0 := by
    cases ho : openFor cfg.codec w old with
    | error e => rw [run_not_opened _ _ _ _ _ e ho] at hrun; cases hrun
    | ok w0 => exact ⟨w0, rfl⟩
  obtain ⟨hrun', hafter⟩ := run_opened cfg.codec cfg.std w w0 old s p1
  rw [hrun'] at hrun
  have hopen : ∃ o, w0.stream = some o ∧ o.pos ≤ o.bytes.length ∧ o.bytes.length ≤ limit ∧
      sessionOnDisk cfg.codec cfg.std limit w.ra old s = .ok (let r := ({ stream := some { s := o, limit := limit }, ra := w0.ra } : LimWriter).putAll cfg.codec cfg.std s.compress s.puts
        let c := r.2.close
        (r.1, c.1, c.2.1, c.2.2)) := by
    cases old with
    | none =>
      simp only [openFor] at p1
      unfold Writer.openNew at p1
      cases hw : w.stream with
      | some x => rw [hw] at p1; cases p1
      | none =>
        rw [hw] at p1
        injection p1 with p1
        subst p1
        exact ⟨_, rfl, Nat.le_refl _, Nat.zero_le _, rfl⟩
    | some bytes =>
      simp only [openFor] at p1
      have hlim' : bytes.length ≤ limit := hlim
      unfold sessionOnDisk LimWriter.openAppend
      unfold Writer.openAppend at p1 ⊢
      simp only at p1 ⊢
      cases hi : w.ra.initAppend cfg.codec { bytes := bytes } with
      | mk a y =>
      obtain ⟨is, ra⟩ := y
      rw [hi] at p1
      cases a with
      | error e => cases p1
      | ok has =>
        simp only at p1 ⊢
        cases hw : w.stream with
        | some x => rw [hw] at p1; cases p1
        | none =>
          rw [hw] at p1
          simp only at p1
          cases has with
          | true =>
            simp only [if_true] at p1 ⊢
            by_cases hb : bytes.length < randomAccessSize
            · rw [if_pos hb] at p1; cases p1
            · rw [if_neg hb] at p1 ⊢
              injection p1 with p1
              subst p1
              exact ⟨_, rfl, Nat.sub_le _ _, hlim', rfl⟩
          | false =>
            simp only [Bool.false_eq_true, if_false] at p1 ⊢
            injection p1 with p1
            subst p1
            exact ⟨_, rfl, Nat.le_refl _, Nat.zero_le _, rfl⟩
  obtain ⟨o, p2, p3, p4, p5⟩ := hopen
  cases hp : Spec.putAll cfg.codec cfg.std s.compress w0 s.puts with
  | error e => rw [hp] at hrun; cases hrun
  | ok w1 =>
    rw [hp] at hrun
    simp only at hrun
    obtain ⟨outs, closed, lw, q1, q2, q3, q4⟩ := disk_session cfg.codec cfg.std limit s hne w0 o p2 p3 p4 w1 w' new hp hrun
    refine ⟨outs, closed, lw, by rw [p5, q1], q2, fun hle => ⟨(q3 hle).1, (q3 hle).2.1⟩, fun hlt => ?_⟩
    obtain ⟨k, k1, k2, k3, k4, k5, v, k6, k7⟩ := q4 hlt
    refine ⟨k, k1, k2, k3, k4, fun hk => ?_, m, ?_, m1, r, o1, fun gs => ?_⟩
    · obtain ⟨e, he, hst⟩ := k5 hk
      refine ⟨?_, fun cs => stuck_steps _ _ cs hst⟩
      have hx := congrArg (fun x => x.2.1) q1
      have hy := congrArg (fun x => x.2.2.1) q1
      simp only at hx hy
      rw [he] at hx
      have hcount : s.puts.length < 2 ^ 27 := by
        have hall : allPuts (ss ++ [s]) = allPuts ss ++ s.puts := by simp [allPuts]
        have := hs.count
        rw [hall, List.length_append] at this
        omega
      have hd := close_disk_error cfg.codec cfg.std s (hs.each s (by simp)) hcount _ _ (putAll_stream s.puts { stream := some { s := o, limit := limit }, ra := w0.ra } rfl).choose_spec
        (opened_empty cfg.codec hcodec cfg.std ss s hs w old h1 w0 p1) e hx
      rcases hd with rfl | rfl
      · exact .inl he
      · exact .inr he
    · obtain ⟨w'', a1, a2⟩ := m3 k k1
      rw [hafter, k6] at a1
      injection a1 with a1
      subst a1
      exact a2 k7
    · rcases o2 gs with h | ⟨h, e, he, hk⟩
      · exact .inl h
      · exact .inr ⟨h, e, he, hk⟩

/-! ## Cases -/

/-- The hypotheses are met by the sample sessions: whatever the limit is, the file begins as it would on a larger disk. -/
example : ∃ w old new, runSessions sampleCfg.codec sampleCfg.std {} none (sampleSessions.take 2) = .ok (w, old) ∧ fileAfter sampleCfg.codec sampleCfg.std sampleSessions = .ok (some new) ∧
    ∀ limit, (old.getD []).length ≤ limit → ∃ outs closed lw, sessionOnDisk sampleCfg.codec sampleCfg.std limit w.ra old (sampleSessions.getLast (by simp [sampleSessions])) = .ok (outs, closed, lw, some (new.take limit)) := by
  obtain ⟨w, old, new, h1, h2, h3⟩ := C112_full_disk sampleCfg idCodec_lossless (sampleSessions.take 2) (sampleSessions.getLast (by simp [sampleSessions]))
    sampleSessions_ok (by simp [sampleSessions]) sampleSessions_loadable (str "f")
  refine ⟨w, old, new, h1, h2, fun limit hl => ?_⟩
  obtain ⟨outs, closed, lw, h4, -⟩ := h3 limit hl
  exact ⟨outs, closed, lw, h4⟩

/-- What a call throws, if anything. -/
def thrown : Except Err Unit → Option Err
  | .ok () => none
  | .error e => some e

/-- What the calls of a session that makes a new file throw, what `close` throws, and how long the file is. -/
def diskResult (limit : Nat) (s : Session) : Option (List (Option Err) × Option Err × Option Nat) :=
  match sessionOnDisk idCodec ieee limit {} none s with
  | .error _ => none
  | .ok (outs, closed, _, file) => some (outs.map thrown, thrown closed, file.map List.length)

/-- Three run headers. -/
def diskSession : Session := ⟨false, [.run { run := 1 } [], .run { run := 2 } [], .run { run := 3 } []]⟩

/-- There is room for the first run header, but not for the second one; for all but the index; for everything; for nothing (then `close` returns normally: there is no index). -/
example : diskResult 100 diskSession = some ([none, some .ioFailure, some .badState], some .badState, some 100) ∧
    diskResult 400 diskSession = some ([none, none, none], some .ioFailure, some 400) ∧
    (diskResult 2000 diskSession).map (·.1) = some [none, none, none] ∧
    diskResult 20 diskSession = some ([some .ioFailure, some .badState, some .badState], none, some 20) := by
  decide +kernel

end Props
