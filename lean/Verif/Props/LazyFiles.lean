import Verif.Props.Lazy
import Verif.Props.SessionCases
/-
C45: lazy unpacking with several files.
-/
namespace Props
open Sio Lcio Spec

/-- If no record is used, it does not matter what would be done with them. -/
theorem readRecords_unused {σ τ : Type} (valid : RecordInfo → Bool) (g : τ → RecordInfo → List Byte → τ × Except Err Bool) :
    ∀ fuel (s : σ) (t : τ) st buf s' st' buf', readRecords (fun s i => (s, valid i)) (fun s _ _ => (s, .error .ub)) fuel s st buf = (s', .error .eof, st', buf') →
      readRecords (fun t i => (t, valid i)) g fuel t st buf = (t, .error .eof, st', buf') := by
  intro fuel
  induction fuel with
  | zero => intro s t st buf s' st' buf' h; simp [readRecords] at h
  | succ n ih =>
    intro s t st buf s' st' buf' h
    unfold readRecords at h ⊢
    cases h1 : readRecordInfo st buf with
    | mk r p =>
      obtain ⟨st1, buf1⟩ := p
      cases r with
      | error e =>
        rw [h1] at h
        simp only [Prod.mk.injEq, Except.error.injEq] at h
        obtain ⟨-, rfl, rfl, rfl⟩ := h
        rfl
      | ok info =>
        simp only [h1] at h ⊢
        cases hv : valid info with
        | false => simp only [hv] at h ⊢; exact ih _ _ _ _ _ _ _ h
        | true =>
          simp only [hv] at h ⊢
          cases h2 : readRecordData st1 info buf1 info.headerLength with
          | mk r p =>
            obtain ⟨st2, buf2⟩ := p
            cases r with
            | error e =>
              rw [h2] at h
              simp only [Prod.mk.injEq, Except.error.injEq] at h
              obtain ⟨-, rfl, rfl, rfl⟩ := h
              rfl
            | ok u =>
              simp only [h2] at h ⊢
              cases h3 : spanOf buf2 info.headerLength info.dataLength with
              | error e =>
                rw [h3] at h
                simp only [Prod.mk.injEq, Except.error.injEq] at h
                obtain ⟨-, rfl, rfl, rfl⟩ := h
                rfl
              | ok span => simp [h3] at h

theorem scan_none_any {σ : Type} (codec : Codec) (std : Std Pid) (f : σ → RecordInfo → List Byte → σ × Except Err Bool) {ps : List Put} {rs : List Rec} (h : Layout codec std ps rs) (hp : ∀ p ∈ ps, p.isEvent = false) (st : σ) (q : Nat) :
    scan (fun st i => (st, isEventRecord i)) f st q rs = (st, .error .eof, none) := by
  induction h generalizing q with
  | nil => rfl
  | other r ps rs hr h1 h2 h3 h ih =>
    rw [scan_skip]
    · exact ih hp _
    · rw [isEventRecord_other r q h2 h3]
  | put p g ps rs hg h ih =>
    have hpe := hp p (by simp)
    cases p with
    | event h cols buf => simp [Put.isEvent] at hpe
    | run h buf =>
      obtain ⟨r, rfl, hr, -⟩ := hg
      simp only [List.cons_append, List.nil_append]
      rw [scan_skip]
      · exact ih (fun x hx => hp x (by simp [hx])) _
      · simp only [isEventRecord, Rec.info, hr.named, Prod.mk.injEq, true_and]
        decide

/-- One round of the two loops, if there is an event. -/
theorem lazy_round (cfg : RConfig) (r : Reader) (st : EventState) (s : IStream) (buf : List Byte) (ev e : EventData)
    (hq : readRecords (fun (st : EventState) i => (st, isEventRecord i)) (eventProcessor cfg) (recordFuel r.stream) {} r.stream r.buf = (st, .ok (), s, buf))
    (he : st.evt = some ev) (hf : finishEvent cfg ev = .ok e) (fuel : Nat) :
    ∃ info b, r.readLazyLoop cfg (fuel + 1) = (.ok (some (e.1, info, b)), { r with stream := s, buf := buf }) ∧ Unpacks cfg e.1 info b e.2 := by
  obtain ⟨t, ht, hR⟩ := readRecords_sim isEventRecord (eventProcessor cfg) (lazyProcessor cfg) (SameState cfg) (fun s t i d b => sameState_step cfg s t i d b)
    _ {} {} _ _ _ _ _ ⟨rfl, trivial⟩ hq
  unfold Reader.readLazyLoop
  simp only [ht]
  obtain ⟨-, hR⟩ := hR
  rw [he] at hR
  cases hte : t.evt with
  | none => rw [hte] at hR; exact hR.elim
  | some x =>
    obtain ⟨h, info, b⟩ := x
    rw [hte] at hR
    obtain ⟨h1, data, d, hb, hd, hc⟩ := hR
    have hh : e.1 = ev.1 := by
      unfold finishEvent at hf
      split at hf
      · cases hf
      · cases hf; rfl
    refine ⟨info, b, by rw [hh, h1], by rw [hb]; simp, d, ev.2, by rw [hb]; simpa using hd, ?_, ?_⟩
    · rw [hh, h1]; exact hc
    · rw [hh]; exact hf.trans (by rw [← hh])

/-- What the lazy reader should do, from what the other one does. -/
def LazyAs (cfg : RConfig) (full : Except Err (Option EventData) × Reader) (lazy : Except Err (Option (EventHeader × RecordInfo × List Byte)) × Reader) : Prop :=
  lazy.2 = full.2 ∧ match full.1 with
  | .ok none => lazy.1 = .ok none
  | .ok (some e) => ∃ info buf, lazy.1 = .ok (some (e.1, info, buf)) ∧ Unpacks cfg e.1 info buf e.2
  | .error _ => False

theorem lazy_loop (cfg : RConfig) : ∀ (rest : List (Str × List Put)) (fuel : Nat) (r : Reader) (name : Str) (ps : List Put), At cfg r name ps rest → rest.length < fuel →
    (∀ x ∈ following name ps rest, delivery cfg x.1 x.2 ≠ none) → LazyAs cfg (r.readNextEventLoop cfg fuel) (r.readLazyLoop cfg fuel)
  | rest, 0, r, name, ps, h, hf, hl => by simp at hf
  | rest, fuel + 1, r, name, ps, h, hf, hl => by
    obtain ⟨pr, rs, h1, h2⟩ := h.stream
    rcases following_split Put.isEvent name ps rest with ⟨pre, p, ps', a1, a2, a3, a4⟩ | ⟨a1, a2⟩
    · have hd := hl (name, p) (by rw [a1]; simp [following, items])
      cases hde : delivery cfg name p with
      | none => exact absurd hde hd
      | some d =>
        cases p with
        | run h buf => simp [Put.isEvent] at a3
        | event hh cols b =>
          have : ∃ e, d = .event e := by
            unfold delivery at hde
            simp only at hde
            split at hde
            · cases hde
            · rename_i e _; cases hde; exact ⟨e, rfl⟩
          obtain ⟨e, rfl⟩ := this
          obtain ⟨st', rs', mid, e0, c1, c2, c3, c4, c5⟩ := scan_events cfg h2 pre _ ps' a1 a2 e name hde pr.length
          obtain ⟨s', buf', b1, -, b3⟩ := readRecords_at (fun st i => (st, isEventRecord i)) (eventProcessor cfg) pr rs h2.ok r.buf {}
          rw [c1] at b1
          simp only [← h1] at b1
          obtain ⟨info, b, d1, d2⟩ := lazy_round cfg r st' s' buf' e0 e b1 c4 c5 fuel
          have hfull : r.readNextEventLoop cfg (fuel + 1) = (.ok (some e), { r with stream := s', buf := buf' }) := by
            unfold Reader.readNextEventLoop
            rw [b1]
            simp only [c4, c5]
          rw [hfull, d1]
          exact ⟨rfl, info, b, rfl, d2⟩
    · have hpoison := scan_none_any (σ := Unit) cfg.codec cfg.std (fun s _ _ => (s, .error .ub)) h2 a1 () pr.length
      obtain ⟨s', buf', b1, b2, -⟩ := readRecords_at (σ := Unit) (fun st i => (st, isEventRecord i)) (fun s _ _ => (s, .error .ub)) pr rs h2.ok r.buf ()
      rw [hpoison, ← h1] at b1
      simp only at b1
      have f1 := readRecords_unused isEventRecord (eventProcessor cfg) _ () {} _ _ _ _ _ b1
      have f2 := readRecords_unused isEventRecord (lazyProcessor cfg) _ () {} _ _ _ _ _ b1
      unfold Reader.readNextEventLoop Reader.readLazyLoop
      rw [f1, f2]
      simp only
      cases rest with
      | nil =>
        have hn := noNext cfg { r with stream := s', buf := buf' } h.files
        simp only [hn]
        exact ⟨rfl, rfl⟩
      | cons q rest =>
        obtain ⟨c1, r2, c2, c3, c4⟩ := nextFile_at cfg { r with stream := s', buf := buf' } q rest h.files
        simp only [c1, if_true, c2]
        have ih := lazy_loop cfg rest fuel r2 q.1 q.2 c3 (by simp at hf; omega) (fun x hx => hl x (by
          unfold following items at hx ⊢
          simp only [List.flatMap_cons, List.mem_append] at hx ⊢
          exact .inr hx))
        revert ih
        cases r2.readNextEventLoop cfg fuel with
        | mk a ra =>
          cases r2.readLazyLoop cfg fuel with
          | mk b rb =>
            rintro ⟨e1, e2⟩
            simp only at e1 e2
            subst e1
            cases a with
            | error x => exact e2.elim
            | ok o =>
              cases o with
              | none =>
                simp only at e2
                subst e2
                exact ⟨rfl, rfl⟩
              | some e =>
                obtain ⟨info, buf, rfl, e4⟩ := e2
                exact ⟨rfl, info, buf, rfl, e4⟩

/-- **C45** with files that LCIO has written, any number of them: after any calls of `readNextEvent` and `readNextRunHeader` none of which has returned null, reading the next event with lazy unpacking gives null just if reading it without does, and otherwise the
event with the same header, whose record is decoded to the same collections; the reader is the same afterwards, so that the two kinds of calls can follow each other in any way. -/
theorem C45_files (cfg : RConfig) (hcodec : Lossless cfg.codec) (files : List (Str × List Byte)) (contents : List (Str × List Session))
    (h : FilesHold cfg.codec cfg.std files contents) (hne : files ≠ []) (hl : ∀ c ∈ contents, Loadable cfg (allPuts c.2)) :
    ∃ r, Reader.openFiles cfg false files = (.ok (), r) ∧ ∀ gs : List Get, none ∉ serve cfg gs (contentsOf contents) →
      match (afterGets cfg gs r).readNextEvent cfg, (afterGets cfg gs r).readNextLazy cfg with
      | (.ok none, r1), (.ok none, r2) => r2 = r1
      | (.ok (some e), r1), (.ok (some (header, info, buf)), r2) => r2 = r1 ∧ header = e.1 ∧ Unpacks cfg header info buf e.2
      | _, _ => False := by
  obtain ⟨r, c, cs, h1, rfl, h2, h3, h4⟩ := open_at cfg hcodec files contents h hne hl
  refine ⟨r, h1, fun gs hn => ?_⟩
  obtain ⟨name', ps', rest', a1, a2, a3, a4⟩ := gets_at cfg gs r _ _ _ h2 (fun x hx => h4 x (h3 ▸ hx)) (h3 ▸ hn)
  have key := lazy_loop cfg rest' _ _ name' ps' a1 a1.rest_length (fun x hx => h4 x (h3 ▸ a4 x hx))
  unfold Reader.readNextEvent Reader.readNextLazy
  revert key
  cases (afterGets cfg gs r).readNextEventLoop cfg ((afterGets cfg gs r).files.length + 1) with
  | mk a ra =>
    cases (afterGets cfg gs r).readLazyLoop cfg ((afterGets cfg gs r).files.length + 1) with
    | mk b rb =>
      rintro ⟨e1, e2⟩
      simp only at e1 e2
      subst e1
      cases a with
      | error x => exact e2.elim
      | ok o =>
        cases o with
        | none =>
          simp only at e2
          subst e2
          rfl
        | some e =>
          obtain ⟨info, buf, rfl, e4⟩ := e2
          exact ⟨rfl, rfl, e4⟩

/-- Three files, one of them empty, read from the beginning. -/
example : ∃ bytes r, Reader.openFiles sampleCfg false [(str "f", bytes), (str "g", []), (str "h", bytes)] = (.ok (), r) ∧
    (r.readNextLazy sampleCfg).2 = (r.readNextEvent sampleCfg).2 := by
  obtain ⟨bytes, hb⟩ := sampleFiles_hold
  obtain ⟨r, h1, h2⟩ := C45_files sampleCfg idCodec_lossless _ _ hb (by simp) sampleFiles_loadable
  refine ⟨bytes, r, h1, ?_⟩
  have := h2 [] (by simp [serve])
  simp only [afterGets] at this
  revert this
  cases r.readNextEvent sampleCfg with
  | mk a ra =>
    cases r.readNextLazy sampleCfg with
    | mk b rb =>
      intro h
      split at h
      · rename_i e1 e2; cases e1; cases e2; exact h
      · rename_i e1 e2; cases e1; cases e2; exact h.1
      · exact h.elim

end Props
