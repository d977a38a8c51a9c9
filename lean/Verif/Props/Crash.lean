import Verif.Lcio.CrashLemmas
import Verif.Props.Append
/-
What is left after a crash of a writer: C65.
-/
namespace Props
open Sio Spec Lcio

theorem flatten_filter (l : List (List Put)) : (l.filter fun l => !l.isEmpty).flatten = l.flatten := by
  induction l with
  | nil => rfl
  | cons x l ih => cases x <;> simp [ih]

theorem runSessions_append (codec : Codec) (std : Std Pid) (w : Writer) (file : Option (List Byte)) (a b : List Session) :
    runSessions codec std w file (a ++ b) = match runSessions codec std w file a with
      | .error e => .error e
      | .ok (w, file) => runSessions codec std w file b := by
  induction a generalizing w file with
  | nil => rfl
  | cons s a ih =>
    simp only [List.cons_append, runSessions]
    cases s.run codec std w file with
    | error e => rfl
    | ok x => exact ih x.1 x.2

/-- Some sessions and one more: the records in the file. -/
theorem crash_records (codec : Codec) (hcodec : Lossless codec) (std : Std Pid) (ss : List Session) (s : Session) (hs : SessionsOk codec std (ss ++ [s]))
    (hne : s.puts ≠ []) :
    ∃ (w : Writer) (old : Option (List Byte)) (new : List Byte) (a b : List Rec) (groups : List (List Rec)), runSessions codec std {} none ss = .ok (w, old) ∧
      fileAfter codec std (ss ++ [s]) = .ok (some new) ∧ Layout codec std (allPuts ss) a ∧ All2 (Holds codec std) s.puts groups ∧
      Layout codec std (allPuts (ss ++ [s])) (a ++ groups.flatten ++ b) ∧ new = fileOf (a ++ groups.flatten ++ b) ∧
      (old = none ∧ a = [] ∨ ∃ r, old = some (fileOf a ++ fileOf [r]) ∧ r.wire.length = 136) ∧
      ∀ n, ∃ w', s.after codec std w old n = .ok w' ∧ reached w' = (fileOf (a ++ (groups.take n).flatten)).length := by
  have hcount := hs.count
  have hall : allPuts (ss ++ [s]) = allPuts ss ++ s.puts := by simp [allPuts]
  rw [hall, List.length_append] at hcount
  have h0 : ∃ cs last f w file, cs.map Chunk.puts = (ss.map Session.puts).filter (fun l => !l.isEmpty) ∧ runSessions codec std {} none ss = .ok (w, file) ∧ Idle w ∧
      Content codec std cs last f file := by
    cases ss with
    | nil => exact ⟨[], none, none, {}, none, rfl, rfl, ⟨rfl, rfl, rfl, rfl⟩, .none .nil rfl⟩
    | cons s0 ss =>
      obtain ⟨s', rest, e1, e2⟩ := hs.first
      simp only [List.cons_append, List.cons.injEq] at e1
      obtain ⟨cs, last, f, w, bytes, h1, h2, h3, h4⟩ := sessions_content codec hcodec std (s0 :: ss) (fun x hx => hs.each x (by simp at hx ⊢; tauto)) [] none none none (.none .nil rfl) {}
        ⟨rfl, rfl, rfl, rfl⟩ (.inr ⟨s0, ss, rfl, by rw [e1.1]; exact e2⟩) (by simp; omega)
      exact ⟨cs, last, f, w, _, h1, h2, h3, by simpa using h4⟩
  obtain ⟨cs, last, f, w, file, h1, h2, h3, h4⟩ := h0
  have e : cs.flatMap Chunk.puts = allPuts ss := by
    rw [List.flatMap, h1, flatten_filter]
    rfl
  obtain ⟨c, last', f', w', bytes, r, b1, b2, b3, b4, ⟨ra, b5⟩, b6, b7⟩ := session_after codec hcodec std cs last f file h4 w h3 s (hs.each s (by simp)) hne
    (by rw [e, List.length_append]; exact hcount)
  have hh : History codec std cs last f := by cases h4 <;> assumption
  have l1 : Layout codec std (allPuts ss) (recsOf cs) := by
    have := layout_history hh .nil
    simpa [e] using this
  have ho := access_other b5
  have l2 := layout_history b3 (.other r [] [] b5.ok ho.1 ho.2.1 ho.2.2 .nil)
  rw [recsOf_snoc] at l2
  have hrecs : recsOf cs ++ c.groups.flatten ++ ([c.ix, c.acc] ++ [r]) = recsOf cs ++ c.recs ++ [r] := by simp [Chunk.recs]
  refine ⟨w, file, bytes, recsOf cs, [c.ix, c.acc] ++ [r], c.groups, h2, ?_, l1, by rw [← b1]; exact b6, ?_, ?_, ?_, ?_⟩
  · unfold fileAfter
    have : runSessions codec std {} none (ss ++ [s]) = .ok (w', some bytes) := by
      rw [runSessions_append, h2]
      simp only [runSessions, b2]
    rw [this]
  · rw [hrecs]
    simpa [e, b1, hall] using l2
  · rw [hrecs, b4, fileOf_append, fileOf_append, fileOf_cons r [], fileOf_nil, List.append_nil]
  · cases h4 with
    | none h he => exact .inl ⟨rfl, by rw [he]; rfl⟩
    | some h a ha r' hr => exact .inr ⟨r', by simp [fileOf_cons, fileOf_nil], access_wire r' a hr⟩
  · intro n
    obtain ⟨w'', h5, h6⟩ := b7 n
    exact ⟨w'', h5, by rw [h6, fileOf_append, List.length_append]⟩

theorem open_one (cfg : RConfig) (name : Str) (B : List Byte) :
    ∃ r, Reader.openFiles cfg false [(name, B)] = (.ok (), r) ∧ r.stream = ready B 0 ∧ r.fileName = .ok name ∧ r.hasNext = false :=
  ⟨_, rfl, rfl, rfl, rfl⟩

theorem all2_take {α β : Type} {R : α → β → Prop} {a : List α} {b : List β} (h : All2 R a b) (n : Nat) : All2 R (a.take n) (b.take n) := by
  induction a generalizing b n with
  | nil => cases h.nil_inv; simpa using All2.nil R
  | cons x a ih =>
    obtain ⟨y, b', rfl, h1, h2⟩ := h.cons_inv
    cases n with
    | zero => exact All2.nil R
    | succ n => exact All2.cons h1 (ih h2 n)

/-- What is ahead when the file is opened. -/
theorem crash_ahead (cfg : RConfig) (hcodec : Lossless cfg.codec) (ss : List Session) (s : Session) (hs : SessionsOk cfg.codec cfg.std (ss ++ [s]))
    (hne : s.puts ≠ []) (hl : Loadable cfg (allPuts (ss ++ [s]))) (name : Str) :
    ∃ w old new, runSessions cfg.codec cfg.std {} none ss = .ok (w, old) ∧ fileAfter cfg.codec cfg.std (ss ++ [s]) = .ok (some new) ∧
      ∀ n, (old.getD []).length ≤ n → ∃ m ≤ (allPuts (ss ++ [s])).length,
        (allPuts ss).length ≤ m ∧
        (∀ i ≤ s.puts.length, ∃ w', s.after cfg.codec cfg.std w old i = .ok w' ∧ (reached w' ≤ n → (allPuts ss).length + i ≤ m)) ∧
        ∃ r, Reader.openFiles cfg false [(name, crashed old new n)] = (.ok (), r) ∧ Ahead CutStream cfg r name ((allPuts (ss ++ [s])).take m) := by
  obtain ⟨w, old, new, a, b, groups, h1, h2, h3, h4, h5, h6, h7, h8⟩ := crash_records cfg.codec hcodec cfg.std ss s hs hne
  refine ⟨w, old, new, h1, h2, ?_⟩
  intro n hn
  have hcr : crashed old new n = (fileOf ([] ++ (a ++ groups.flatten ++ b))).take n := by
    unfold crashed
    rw [List.drop_of_length_le hn, List.append_nil, h6, List.nil_append]
  obtain ⟨d, hd⟩ := contained_prefix n (a ++ groups.flatten ++ b)
  obtain ⟨m, c', x, m0, m1, m2, m3, m4⟩ := layout_prefix cfg name h5 (fun p hp => hl p hp name) (contained n (a ++ groups.flatten ++ b)) d hd
  have hge : ∀ i ≤ s.puts.length, (fileOf (a ++ (groups.take i).flatten)).length ≤ n → (allPuts ss).length + i ≤ m := by
    intro i hi hle
    have hsplit : a ++ groups.flatten ++ b = (a ++ (groups.take i).flatten) ++ ((groups.drop i).flatten ++ b) := by
      conv => lhs; rw [← List.take_append_drop i groups]
      rw [List.flatten_append]
      simp
    obtain ⟨d', hd'⟩ := contained_ge (a ++ (groups.take i).flatten) ((groups.drop i).flatten ++ b) n hle
    rw [← hsplit] at hd'
    have c1 : (a ++ (groups.take i).flatten).countP completes = (allPuts ss).length + i := by
      have := layout_count (layout_groups (all2_take h4 i) .nil)
      rw [List.append_nil, List.append_nil, List.length_take, Nat.min_eq_left hi] at this
      rw [List.countP_append, this, layout_count h3]
    rw [← m4, hd', List.countP_append, c1]
    omega
  have hold : (fileOf a).length ≤ n := by
    rcases h7 with ⟨-, rfl⟩ | ⟨r, rfl, -⟩
    · simp [fileOf_nil]
    · simp at hn; omega
  refine ⟨m, m0, by have := hge 0 (by omega) (by simpa using hold); omega, ?_, ?_⟩
  · intro i hi
    obtain ⟨w', h9, h10⟩ := h8 i
    exact ⟨w', h9, fun hle => hge i hi (by rw [← h10]; exact hle)⟩
  · obtain ⟨r, o1, o2, o3, o4⟩ := open_one cfg name (crashed old new n)
    refine ⟨r, o1, ⟨c', x, ⟨[], a ++ groups.flatten ++ b, n, ?_, h5.ok, ?_⟩, m2, m3⟩, o3, o4⟩
    · rw [o2, hcr]; rfl
    · rw [← m1]; rfl

/-- **C65**, a writer that crashes. After any sessions `ss` one more session `s` is started with the same file; the machine stops when the first `n` bytes of
what the session makes of the file have reached it, and these are at least as many as the file had before (always so for a new file). Then `m` things are in the
file that can be read: at least all the things of the earlier sessions, and all those of this session for which the call had come to its end with the file
written up to there. Any sequence of calls of `readNextEvent` and `readNextRunHeader` returns what it returns for the first `m` things that were written; where
this is null, an exception may be thrown instead. -/
theorem C65_crash_partial (cfg : RConfig) (hcodec : Lossless cfg.codec) (ss : List Session) (s : Session) (hs : SessionsOk cfg.codec cfg.std (ss ++ [s]))
    (hne : s.puts ≠ []) (hl : Loadable cfg (allPuts (ss ++ [s]))) (name : Str) :
    ∃ w old new, runSessions cfg.codec cfg.std {} none ss = .ok (w, old) ∧ fileAfter cfg.codec cfg.std (ss ++ [s]) = .ok (some new) ∧
      ∀ n, (old.getD []).length ≤ n → ∃ m ≤ (allPuts (ss ++ [s])).length,
        (allPuts ss).length ≤ m ∧
        (∀ i ≤ s.puts.length, ∃ w', s.after cfg.codec cfg.std w old i = .ok w' ∧ (reached w' ≤ n → (allPuts ss).length + i ≤ m)) ∧
        ∃ r, Reader.openFiles cfg false [(name, crashed old new n)] = (.ok (), r) ∧
          ∀ gs, gets cfg gs r = .ok (serve cfg gs (((allPuts (ss ++ [s])).take m).map fun p => (name, p))) ∨
            (none ∈ serve cfg gs (((allPuts (ss ++ [s])).take m).map fun p => (name, p)) ∧
              ∃ e, gets cfg gs r = .error e ∧ (e = .noMarker ∨ e = .badState ∨ e = .ioFailure)) := by
  obtain ⟨w, old, new, h1, h2, h3⟩ := crash_ahead cfg hcodec ss s hs hne hl name
  refine ⟨w, old, new, h1, h2, fun n hn => ?_⟩
  obtain ⟨m, m0, m1, m2, r, o1, ha⟩ := h3 n hn
  refine ⟨m, m0, m1, m2, r, o1, fun gs => ?_⟩
  rcases cut_gets cfg gs r name _ ha (fun p hp => hl p (List.mem_of_mem_take hp) name) with h | ⟨h, e, he, hc, hz⟩
  · exact .inl h
  · refine .inr ⟨h, e, he, ?_⟩
    rcases hc with rfl | h
    · exact absurd rfl hz
    · exact h

/-- **C65**, what was in the file before. Whatever part of the new content of the file has been written: calls of `readNextEvent` and `readNextRunHeader`
return everything of the earlier sessions. What comes after them is not covered (see `C65_fails_in_file_record`). -/
theorem C65_earlier_partial (cfg : RConfig) (hcodec : Lossless cfg.codec) (ss : List Session) (s : Session) (hs : SessionsOk cfg.codec cfg.std (ss ++ [s]))
    (hne : s.puts ≠ []) (hl : Loadable cfg (allPuts ss)) (name : Str) :
    ∃ w old new, runSessions cfg.codec cfg.std {} none ss = .ok (w, old) ∧ fileAfter cfg.codec cfg.std (ss ++ [s]) = .ok (some new) ∧
      ∀ n, ∃ r, Reader.openFiles cfg false [(name, crashed old new n)] = (.ok (), r) ∧
        ∀ gs, none ∉ serve cfg gs ((allPuts ss).map fun p => (name, p)) → gets cfg gs r = .ok (serve cfg gs ((allPuts ss).map fun p => (name, p))) := by
  obtain ⟨w, old, new, a, b, groups, h1, h2, h3, h4, h5, h6, h7, h8⟩ := crash_records cfg.codec hcodec cfg.std ss s hs hne
  refine ⟨w, old, new, h1, h2, ?_⟩
  intro n
  obtain ⟨r, o1, o2, o3, o4⟩ := open_one cfg name (crashed old new n)
  refine ⟨r, o1, ?_⟩
  intro gs hn
  have hX : ∃ X, crashed old new n = fileOf a ++ X := by
    unfold crashed
    rcases h7 with ⟨rfl, rfl⟩ | ⟨r', rfl, -⟩
    · exact ⟨_, by rw [fileOf_nil, List.nil_append]⟩
    · rw [h6, List.append_assoc, fileOf_append, Option.getD_some]
      by_cases hle : n ≤ (fileOf a).length
      · refine ⟨fileOf [r'], ?_⟩
        rw [List.take_append_of_le_length hle, List.drop_append_of_le_length hle, ← List.append_assoc, List.take_append_drop]
      · rw [List.take_append, List.take_of_length_le (by omega), List.append_assoc]
        exact ⟨_, rfl⟩
  obtain ⟨X, hX⟩ := hX
  have ha : Ahead TailStream cfg r name (allPuts ss) := by
    refine ⟨⟨a, [], ⟨[], X, ?_, fun y hy => h3.ok y (by simpa using hy)⟩, h3, .inl rfl⟩, o3, o4⟩
    rw [o2, hX]; simp
  exact ahead_gets tail_steps cfg gs r name _ ha (fun p hp => hl p hp name) hn

/-! ## Cases -/

/-- The hypotheses of both theorems are met by the sample sessions and a session that crashes. -/
example (gs : List Get) : ∃ w old new, runSessions sampleCfg.codec sampleCfg.std {} none (sampleSessions.take 2) = .ok (w, old) ∧
    fileAfter sampleCfg.codec sampleCfg.std sampleSessions = .ok (some new) ∧
    ∀ n, (old.getD []).length ≤ n → ∃ m ≤ 5, 2 ≤ m ∧ ∃ r, Reader.openFiles sampleCfg false [(str "f", crashed old new n)] = (.ok (), r) ∧
      (none ∉ serve sampleCfg gs (((allPuts sampleSessions).take m).map fun p => (str "f", p)) →
        gets sampleCfg gs r = .ok (serve sampleCfg gs (((allPuts sampleSessions).take m).map fun p => (str "f", p)))) := by
  obtain ⟨w, old, new, h1, h2, h3⟩ := C65_crash_partial sampleCfg idCodec_lossless (sampleSessions.take 2) (sampleSessions.getLast (by simp [sampleSessions]))
    sampleSessions_ok (by simp [sampleSessions]) sampleSessions_loadable (str "f")
  refine ⟨w, old, new, h1, h2, ?_⟩
  intro n hn
  obtain ⟨m, m1, m2, -, r, h4, h5⟩ := h3 n hn
  refine ⟨m, m1, m2, r, h4, ?_⟩
  intro hno
  rcases h5 gs with h | ⟨h, -⟩
  · exact h
  · exact absurd h hno

/-- The content of a file after some sessions. -/
def contentAfter (ss : List Session) : List Byte := match fileAfter idCodec ieee ss with
  | .ok (some b) => b
  | _ => []

/-- A file with the header of run 1, to which the header of run 2 is appended. -/
def crashOld : Session := ⟨false, [.run { run := 1 } []]⟩
def crashNew : Session := ⟨false, [.run { run := 2, descr := str "A run with the second version of the readout" } []]⟩

/-- **C65** fails if a writer that appends to a file crashes before it has overwritten the last record of the file (136 bytes; a session starts by overwriting
it). Here the file has 456 bytes, and the machine stops when the first 60 of these 136 bytes are overwritten. Then a run header with number 0 is returned:
there is no such run header in either session. -/
theorem C65_fails_in_file_record :
    (contentAfter [crashOld]).length = 456 ∧
    numbersIn [.run, .run] (contentAfter [crashOld]) = .ok [some (1, none), none] ∧
    numbersIn [.run, .run, .run] (contentAfter [crashOld, crashNew]) = .ok [some (1, none), some (2, none), none] ∧
    numbersIn [.run, .run, .run] (crashed (some (contentAfter [crashOld])) (contentAfter [crashOld, crashNew]) 380) =
      .ok [some (1, none), some (0, none), none] := by
  decide +kernel

end Props
