import Verif.Props.SessionCases
/-
C34: skipping events.
-/
namespace Props
open Sio Spec Lcio

theorem countEvents_map (name : Str) (ps : List Put) : countEvents (ps.map fun p => (name, p)) = putEvents ps := by
  simp only [countEvents, putEvents, List.countP_map]; rfl

/-- **C34**, as far as it holds. After any sessions of a writer a file is opened and read with any calls none of which has returned null. If `n` or more events are left, then
`skipNEvents(n)` has the same effect as reading `n` events: whatever is called afterwards, the results are the same. They are those of the calls on what is
left after `n` further events.

Missing: fewer than `n` events are left in the file that is being read, see `C34_fails_at_end` and `C34_fails_across_files`. -/
theorem C34_skip_partial (cfg : RConfig) (hcodec : Lossless cfg.codec) (ss : List Session) (hs : SessionsOk cfg.codec cfg.std ss)
    (hl : Loadable cfg (allPuts ss)) (name : Str) (before after : List Get) (n : Nat)
    (hb : none ∉ serve cfg before ((allPuts ss).map fun p => (name, p)))
    (hn : n ≤ countEvents (remaining before ((allPuts ss).map fun p => (name, p)))) :
    ∃ bytes r r', fileAfter cfg.codec cfg.std ss = .ok (some bytes) ∧ Reader.openFiles cfg false [(name, bytes)] = (.ok (), r) ∧
      (afterGets cfg before r).skipNEvents n = (.ok (), r') ∧
      gets cfg after r' = gets cfg after (afterGets cfg (List.replicate n .event) (afterGets cfg before r)) ∧
      gets cfg after r' = .ok (serve cfg after (afterEvents n (remaining before ((allPuts ss).map fun p => (name, p))))) := by
  obtain ⟨bytes, h1, h2⟩ := holds_sessions cfg hcodec ss hs
  obtain ⟨r, c, cs, h3, h4, h5, h6, h7⟩ := open_at cfg hcodec [(name, bytes)] [(name, ss)] (Lcio.All2.cons ⟨rfl, h1, .inl hs⟩ (Lcio.All2.nil _)) (by simp)
    (by intro c hc; simp at hc; subst hc; exact hl)
  cases h4
  have e : contentsOf [(name, ss)] = (allPuts ss).map fun p => (name, p) := by simp [contentsOf, items]
  rw [e] at h6 h7
  rw [← h6] at hb hn h7
  obtain ⟨name1, ps1, rest1, a1, a2, a3, a4⟩ := gets_at cfg before r _ _ _ h5 h7 hb
  have hr1 : rest1 = [] := by
    have f1 := h5.files.1
    have f2 := a1.files.1
    simp only [List.length_map, List.length_drop, List.length_nil] at f1 f2
    have f3 := h5.rest_length
    have f4 := a1.file
    have := a1.rest_length
    rw [a3] at this f2
    have hlen : r.files.length = 1 := by
      have := congrArg (fun x => x.2.files.length) h3
      simpa [Reader.openFiles, Reader.openFile] using this.symm
    exact List.eq_nil_of_length_eq_zero (by omega)
  subst hr1
  have hf : ∀ nm ps, following nm ps [] = ps.map fun p => (nm, p) := by intro nm ps; simp [following, items]
  rw [← a2, hf, countEvents_map] at hn
  obtain ⟨r', ps', b1, b2, b3⟩ := skip_at cfg _ name1 ps1 [] a1 n hn
  have hl1 : ∀ x ∈ following name1 ps1 [], delivery cfg x.1 x.2 ≠ none := fun x hx => h7 x (a4 x hx)
  obtain ⟨name2, ps2, rest2, c1, c2, -, c4⟩ := gets_at cfg (List.replicate n .event) _ _ _ _ a1 hl1
    (serve_events cfg n _ hl1 (by rw [hf, countEvents_map]; exact hn))
  rw [remaining_events] at c2
  have d : following name1 ps' [] = following name2 ps2 rest2 := by rw [c2, hf, hf, b3]
  have g1 := gets_serve cfg after _ _ _ _ c1 (fun x hx => hl1 x (c4 x hx))
  have g2 := gets_serve cfg after _ _ _ _ b2 (fun x hx => hl1 x (c4 x (by rw [← d]; exact hx)))
  refine ⟨bytes, r, r', h1, h3, b1, by rw [g1, g2, d], ?_⟩
  rw [g2, d, c2, a2, h6]

/-- **C34** fails if fewer than `n` events are left: reading `n` events returns null and does not throw, whereas after `skipNEvents(n)`, which
reports nothing, the next read throws. -/
theorem C34_fails_at_end (cfg : RConfig) (hcodec : Lossless cfg.codec) (files : List (Str × List Byte)) (c : Str × List Session) (cs : List (Str × List Session))
    (h : FilesHold cfg.codec cfg.std files (c :: cs)) (hl : ∀ c' ∈ c :: cs, Loadable cfg (allPuts c'.2)) (n : Nat)
    (hn : (allPuts c.2).countP Put.isEvent < n) (g : Get) :
    ∃ r r', Reader.openFiles cfg false files = (.ok (), r) ∧ r.skipNEvents n = (.ok (), r') ∧ (g.call cfg r').1 = .error .badState := by
  have hne : files ≠ [] := by rintro rfl; have := h.1; simp at this
  obtain ⟨r, c', cs', h3, h4, h5, h6, h7⟩ := open_at cfg hcodec files _ h hne hl
  cases h4
  obtain ⟨r', b1, B, p, b2⟩ := skip_end cfg r _ _ _ h5 n hn
  obtain ⟨r2, b3⟩ := call_failed cfg g r' B p b2
  exact ⟨r, r', h3, b1, by rw [b3]⟩

/-- Run and event numbers of what is read. -/
def numbers : Except Err (List (Option Delivery)) → Except Err (List (Option (Int × Option Int)))
  | .error e => .error e
  | .ok l => .ok (l.map fun d => match d with
    | none => none
    | some (.run h) => some (h.run.toInt, none)
    | some (.event e) => some (e.1.run.toInt, some e.1.evt.toInt))

/-- A file with some empty events of run 1. -/
def plainFile (evts : List (BitVec 32)) : List Byte :=
  match fileAfter idCodec ieee [⟨false, evts.map fun e => .event { run := 1, evt := e } [] ([], [])⟩] with
  | .ok (some b) => b
  | _ => []

def twoFiles : List (Str × List Byte) := [(str "a.slcio", plainFile [1]), (str "b.slcio", plainFile [2, 3])]

/-- **C34** fails with several files. One event in the first file and two in the second: the third `readNextEvent` returns event 3, but reading after `skipNEvents(2)`
throws. -/
theorem C34_fails_across_files :
    numbers (gets sampleCfg [.event, .event, .event] (Reader.openFiles sampleCfg false twoFiles).2) = .ok [some (1, some 1), some (1, some 2), some (1, some 3)] ∧
    ((Reader.openFiles sampleCfg false twoFiles).2.skipNEvents 2).1 = .ok () ∧
    numbers (gets sampleCfg [.event] ((Reader.openFiles sampleCfg false twoFiles).2.skipNEvents 2).2) = .error .badState := by
  decide +kernel

/-- The sessions of `sampleSessions` contain three events. After reading the first run header one can skip two of them, and gets the last one. -/
example : ∃ bytes r r', fileAfter sampleCfg.codec sampleCfg.std sampleSessions = .ok (some bytes) ∧ Reader.openFiles sampleCfg false [(str "f", bytes)] = (.ok (), r) ∧
    (afterGets sampleCfg [.run] r).skipNEvents (2 : Nat) = (.ok (), r') ∧
    gets sampleCfg [.run, .event] r' = gets sampleCfg [.run, .event] (afterGets sampleCfg (List.replicate 2 .event) (afterGets sampleCfg [.run] r)) := by
  obtain ⟨bytes, r, r', h1, h2, h3, h4, -⟩ := C34_skip_partial sampleCfg idCodec_lossless sampleSessions sampleSessions_ok sampleSessions_loadable (str "f")
    [.run] [.run, .event] 2 (by simp [serve, allPuts, sampleSessions, delivery, Put.loadedRun, Get.wants, Put.isEvent]) (by decide +kernel)
  exact ⟨bytes, r, r', h1, h2, h3, h4⟩

end Props
