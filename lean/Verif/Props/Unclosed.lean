import Verif.Lcio.RecreateLemmas
import Verif.Props.Direct
import Verif.Props.Crash
/-
Direct access to a file whose writer was not closed: C66.
-/
namespace Props
open Sio Spec Lcio

theorem storable_legible (cfg : RConfig) (h : EventHeader) (cols : List (Str × Collection)) (buf : Str × Str)
    (hs : Storable cfg.std cfg.ignoreNull [] cfg.wanted h cols) : Legible (.event h cols buf) := by
  refine ⟨hs.header, ?_, hs.headerSize⟩
  have hst : stored [] { h with cols := colHeads cols } = (storedCols [] cols).map fun c => (c.1, ⟨c.2.type, c.2.flag⟩) := by
    unfold stored storedCols colHeads
    simp only [List.filter_map]
    rfl
  intro c hc _
  rw [hst, List.mem_map] at hc
  obtain ⟨x, hx, rfl⟩ := hc
  exact noPostfix _ _ (hs.event.stored x hx).kind

/-- **C66**, as far as it holds. In a new file some run headers and events are written, and the writer is not closed. The file has at least 136 bytes and less than
2 GiB, the four bytes from position 132 before its end are not those with which records are marked, and run headers are not compressed or none directly follows
another. When the file is opened for direct access, the event map has exactly what is `found`, with positions at which reading finds it (or another one with the same
numbers that is found) and then all that comes after it.

Missing: everything that is not `found` (`C66_fails_for_events`), short files (`C66_fails_for_short_file`), and compressed run headers (`C66_fails_for_compressed`). -/
theorem C66_unclosed_partial (cfg : RConfig) (hcodec : Lossless cfg.codec) (s : Session) (hs : ∀ p ∈ s.puts, p.Ok cfg.codec cfg.std s.compress)
    (hn : ∀ p ∈ s.puts, p.isEvent = true → 0 ≤ p.key.evt.toInt)
    (hst : ∀ h cols buf, Put.event h cols buf ∈ s.puts → Storable cfg.std cfg.ignoreNull [] cfg.wanted h cols)
    (hc : s.compress = false ∨ ∀ p ∈ found s.puts, p.isEvent = true) (name : Str) :
    ∃ w out, s.after cfg.codec cfg.std {} none s.puts.length = .ok w ∧ w.stream = some out ∧
      (136 ≤ out.bytes.length → out.bytes.length < 2 ^ 31 → (out.bytes.drop (out.bytes.length - 132)).take 4 ≠ [0xab, 0xad, 0xca, 0xfe] →
        ∃ r, Reader.openFiles cfg true [(name, out.bytes)] = (.ok (), r) ∧
          (∀ k : RunEvent, -1 ≤ k.evt.toInt → k ∉ (found s.puts).map Put.key → r.ra.map.getPosition k = npos) ∧
          (∀ k ∈ (found s.puts).map Put.key, r.ra.map.getPosition k ≠ npos ∧ ∃ pre p post, s.puts = pre ++ p :: post ∧ p ∈ found s.puts ∧ p.key = k ∧
            ∀ gs, gets cfg gs (seeked r (r.ra.map.getPosition k)) = .ok (serve cfg gs ((p :: post).map fun p => (name, p))))) := by
  obtain ⟨gs, ra', h1, h2, h3⟩ := over_putAll_opts cfg.codec hcodec cfg.std s.compress s.puts hs [] {}
  refine ⟨⟨some (over ([] ++ fileOf gs.flatten) []), ra'⟩, over ([] ++ fileOf gs.flatten) [], ?_, rfl, ?_⟩
  · unfold Session.after Writer.openNew
    simp only [bind, Except.bind, List.take_length]
    exact h3
  have hb : (over ([] ++ fileOf gs.flatten) []).bytes = fileOf gs.flatten := by simp [over]
  rw [hb]
  intro hlen hmax hm
  have hleg : ∀ p ∈ s.puts, Legible p := by
    intro p hp
    cases p with
    | run => trivial
    | event h cols buf => exact storable_legible cfg h cols buf (hst h cols buf hp)
  obtain ⟨ra, L, e1, e2, e3, e4⟩ := open_recreate cfg s.puts gs h1 hleg (by
    rcases hc with hc | hc
    · exact .inr fun r hr => by rw [h2 r hr, hc]
    · exact .inl hc) name _ rfl hlen hm
  have hin : ∀ p ∈ found s.puts, p ∈ s.puts := by
    have : ∀ n (ps : List Put), ps.length ≤ n → ∀ p ∈ found ps, p ∈ ps := by
      intro n
      induction n with
      | zero => intro ps hps p hp; cases ps <;> simp_all [found]
      | succ n ih =>
        intro ps hps p hp
        match ps, hp, hps with
        | [], hp, _ => simp [found] at hp
        | .event _ _ _ :: ps, hp, hps => exact List.mem_cons_of_mem _ (ih ps (by simpa using hps) p hp)
        | [.run _ _], hp, _ => simp [found] at hp
        | .run _ _ :: q :: ps, hp, hps =>
          simp only [found, List.mem_cons] at hp
          rcases hp with rfl | hp
          · simp
          · exact List.mem_cons_of_mem _ (List.mem_cons_of_mem _ (ih ps (by simp only [List.length_cons] at hps; omega) p hp))
    exact this s.puts.length s.puts (Nat.le_refl _)
  have hreg : ∀ p ∈ found s.puts, -1 ≤ p.key.evt.toInt := by
    intro p hp
    cases he : p.isEvent with
    | true => have := hn p (hin p hp) he; omega
    | false =>
      cases p with
      | run h buf => simp only [Put.key]; decide
      | event => simp [Put.isEvent] at he
  have hk : ∀ k, k ∈ L.map (·.1) ↔ k ∈ (found s.puts).map Put.key := by intro k; rw [e3]
  have hL : ∀ x ∈ L, -1 ≤ x.1.evt.toInt := by
    intro x hx
    obtain ⟨p, hp, hp2⟩ := List.mem_map.1 ((hk x.1).1 (List.mem_map.2 ⟨x, hx, rfl⟩))
    rw [← hp2]
    exact hreg p hp
  have hinv := addAll_inv L {} [] MapInv.empty
  rw [List.nil_append] at hinv
  refine ⟨_, e1, ?_, ?_⟩
  · intro k hkr hm
    simp only
    rw [e2]
    rcases hinv.lookup hL k hkr with ⟨-, h⟩ | ⟨pos, h, -⟩
    · exact h
    · exact absurd ((hk k).1 (List.mem_map.2 ⟨_, h, rfl⟩)) hm
  · intro k hkm
    simp only
    rw [e2]
    have hkr : -1 ≤ k.evt.toInt := by
      obtain ⟨p, hp, hp2⟩ := List.mem_map.1 hkm
      rw [← hp2]; exact hreg p hp
    rcases hinv.lookup hL k hkr with ⟨h, -⟩ | ⟨pos, h, hpos⟩
    · exact absurd ((hk k).2 hkm) h
    · rw [hpos]
      obtain ⟨pre, p, post, ra', rb, f1, f2, f3, f4, f5, f6⟩ := e4 k pos h
      obtain ⟨hnp, hat, -⟩ := direct_at cfg name _ hmax ra ra' rb (p :: post) pos f4 f5 f6
      refine ⟨hnp, pre, p, post, f1, f2, f3, ?_⟩
      intro gs
      have := gets_serve cfg gs _ _ _ _ hat (by
        intro x hx
        simp only [following, items] at hx
        simp only [List.flatMap_cons, List.flatMap_nil, List.append_nil, List.mem_map] at hx
        obtain ⟨q, hq, rfl⟩ := hx
        refine storable_loadable cfg s.puts hst q ?_ _
        rw [f1]; exact List.mem_append_right _ hq)
      rw [this]
      simp [following, items]

theorem found_events (ps : List Put) (h : ∀ p ∈ ps, p.isEvent = true) : found ps = [] := by
  induction ps with
  | nil => rfl
  | cons p ps ih =>
    cases p with
    | run => have := h _ (List.mem_cons_self ..); simp [Put.isEvent] at this
    | event => exact ih fun q hq => h q (by simp [hq])

/-- **C66** fails for every file with events only (for example each but the first one of a run that is distributed on several files): when the writer was not
closed, then direct access finds none of the events. -/
theorem C66_fails_for_events (cfg : RConfig) (hcodec : Lossless cfg.codec) (s : Session) (hs : ∀ p ∈ s.puts, p.Ok cfg.codec cfg.std s.compress)
    (hst : ∀ h cols buf, Put.event h cols buf ∈ s.puts → Storable cfg.std cfg.ignoreNull [] cfg.wanted h cols)
    (he : ∀ p ∈ s.puts, p.isEvent = true) (name : Str) :
    ∃ w out, s.after cfg.codec cfg.std {} none s.puts.length = .ok w ∧ w.stream = some out ∧
      (136 ≤ out.bytes.length → (out.bytes.drop (out.bytes.length - 132)).take 4 ≠ [0xab, 0xad, 0xca, 0xfe] →
        ∃ r, Reader.openFiles cfg true [(name, out.bytes)] = (.ok (), r) ∧ ∀ run evt, (r.readEvent cfg run evt).1 = .ok none) := by
  obtain ⟨gs, ra', h1, h2, h3⟩ := over_putAll_opts cfg.codec hcodec cfg.std s.compress s.puts hs [] {}
  refine ⟨⟨some (over ([] ++ fileOf gs.flatten) []), ra'⟩, over ([] ++ fileOf gs.flatten) [], ?_, rfl, ?_⟩
  · unfold Session.after Writer.openNew
    simp only [bind, Except.bind, List.take_length]
    exact h3
  have hb : (over ([] ++ fileOf gs.flatten) []).bytes = fileOf gs.flatten := by simp [over]
  rw [hb]
  intro hlen hm
  have hf := found_events s.puts he
  obtain ⟨ra, L, e1, e2, e3, e4⟩ := open_recreate cfg s.puts gs h1 (by
    intro p hp
    cases p with
    | run => trivial
    | event h cols buf => exact storable_legible cfg h cols buf (hst h cols buf hp)) (.inl (by rw [hf]; simp)) name _ rfl hlen hm
  rw [hf] at e3
  have : L = [] := by simpa using e3
  subst this
  refine ⟨_, e1, ?_⟩
  intro run evt
  unfold Reader.readEvent
  simp only [if_true]
  rw [e2]
  rfl

/-! ## Cases -/

/-- What is found by direct access in a file: the event map. -/
def mapIn (bytes : List Byte) : Except Err (List (Int × Int)) :=
  match Reader.openFiles sampleCfg true [(str "f", bytes)] with
  | (.error e, _) => .error e
  | (.ok (), r) => .ok (r.ra.map.map.map fun e => (e.1.run.toInt, e.1.evt.toInt))

/-- Two runs, each with a header and two events. -/
def unclosedSample : List Put :=
  [.run { run := 1 } [], .event { run := 1, evt := 0 } [] ([], []), .event { run := 1, evt := 1 } [] ([], []),
   .run { run := 2 } [], .event { run := 2, evt := 0 } [] ([], []), .event { run := 2, evt := 1 } [] ([], [])]

/-- The hypotheses of `C66_unclosed_partial` are met by this session; for each run, the first event is found, and nothing else. -/
example : (∀ p ∈ unclosedSample, p.Ok sampleCfg.codec sampleCfg.std false) ∧ (found unclosedSample).map Put.key = [⟨1, 0⟩, ⟨2, 0⟩] ∧
    136 ≤ (unclosed unclosedSample).length ∧ (unclosed unclosedSample).length < 2 ^ 31 ∧
    ((unclosed unclosedSample).drop ((unclosed unclosedSample).length - 132)).take 4 ≠ [0xab, 0xad, 0xca, 0xfe] ∧
    mapIn (unclosed unclosedSample) = .ok [(1, 0), (2, 0)] := by
  refine ⟨?_, by decide +kernel, by decide +kernel, by decide +kernel, by decide +kernel, by decide +kernel⟩
  have h : ∀ n, RunHeaderOk { run := n } := fun n => ⟨by simp, by simp, by simp, by simp, (by decide : ParamsOk {})⟩
  intro p hp
  simp only [unclosedSample, List.mem_cons, List.not_mem_nil, or_false] at hp
  rcases hp with rfl | rfl | rfl | rfl | rfl | rfl
  · exact ⟨h 1, jobOk_id _ _ _ _ (by decide +kernel) (by decide +kernel)⟩
  · exact ⟨jobOk_id _ _ _ _ (by decide +kernel) (by decide +kernel), jobOk_id _ _ _ _ (by decide +kernel) (by decide +kernel)⟩
  · exact ⟨jobOk_id _ _ _ _ (by decide +kernel) (by decide +kernel), jobOk_id _ _ _ _ (by decide +kernel) (by decide +kernel)⟩
  · exact ⟨h 2, jobOk_id _ _ _ _ (by decide +kernel) (by decide +kernel)⟩
  · exact ⟨jobOk_id _ _ _ _ (by decide +kernel) (by decide +kernel), jobOk_id _ _ _ _ (by decide +kernel) (by decide +kernel)⟩
  · exact ⟨jobOk_id _ _ _ _ (by decide +kernel) (by decide +kernel), jobOk_id _ _ _ _ (by decide +kernel) (by decide +kernel)⟩

/-- **C66** fails for events: here there are two, which are found without direct access. -/
example :
    let file := unclosed [.event { run := 1, evt := 0 } [] ([], []), .event { run := 1, evt := 1 } [] ([], [])]
    136 ≤ file.length ∧ (file.drop (file.length - 132)).take 4 ≠ [0xab, 0xad, 0xca, 0xfe] ∧ mapIn file = .ok [] ∧
    numbersIn [.event, .event, .event] file = .ok [some (1, some 0), some (1, some 1), none] := by
  decide +kernel

/-- **C66** fails for files with less than 136 bytes: they cannot be opened for direct access. Here a file with a run header. -/
theorem C66_fails_for_short_file :
    numbersIn [.run, .run] (unclosed [.run { run := 1 } []]) = .ok [some (1, none), none] ∧ mapIn (unclosed [.run { run := 1 } []]) = .error .ioException := by
  decide +kernel

/-- A codec that turns the data around. -/
def turnCodec : Codec := { compress := fun d => .ok d.reverse, uncompress := fun d _ => .ok d.reverse }

theorem turnCodec_lossless : Lossless turnCodec := by
  intro d c h; cases h; exact congrArg _ (List.reverse_reverse d)

/-- The numbers of the runs in a file that was written with this codec and compression by a writer that was not closed: read with and without direct access. -/
def compressedRuns (direct : Bool) (ps : List Put) : Except Err (List (Option (Int × Option Int))) :=
  match (⟨true, ps⟩ : Session).after turnCodec ieee {} none ps.length with
  | .error e => .error e
  | .ok w => match Reader.openFiles { codec := turnCodec, std := ieee } direct [(str "f", (w.stream.map (·.bytes)).getD [])] with
    | (.error e, _) => .error e
    | (.ok (), r) => numbers (gets { codec := turnCodec, std := ieee } [.run, .run, .run] r)

/-- **C66** fails for compressed files with two run headers that follow one another: the file cannot be opened for direct access. -/
theorem C66_fails_for_compressed :
    compressedRuns false [.run { run := 1 } [], .run { run := 2 } []] = .ok [some (1, none), some (2, none), none] ∧
    compressedRuns true [.run { run := 1 } [], .run { run := 2 } []] = .error .noMarker := by
  decide +kernel

end Props
