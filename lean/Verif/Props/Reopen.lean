import Verif.Lcio.Reopen
import Verif.Props.Counts
/-
C86: readers that are used again.
-/
namespace Props
open Sio Spec Lcio

/-- The calls on new readers agree with those in the other files. -/
theorem new_opens (cfg : RConfig) (direct : Bool) (f : Str × List Byte) (files : List (Str × List Byte)) :
    (Reader.new direct).openNames cfg (f :: files) = Reader.openFiles cfg direct (f :: files) ∧
    (Reader.openFiles cfg direct [f]).1 = ((Reader.new direct).openName cfg f.1 f.2).1 ∧
    ((Reader.openFiles cfg direct [f]).1 = .ok () → (Reader.openFiles cfg direct [f]).2 = ((Reader.new direct).openName cfg f.1 f.2).2) := by
  cases direct with
  | false => exact ⟨rfl, rfl, fun _ => rfl⟩
  | true =>
    unfold Reader.openNames Reader.openFiles Reader.openName Reader.openFile Reader.new
    simp only [if_true]
    cases h : ({} : RaMgr).createEventMap cfg.codec { bytes := f.2 } with
    | mk a b =>
      obtain ⟨b, c⟩ := b
      cases a with
      | error e => exact ⟨rfl, rfl, fun h => nomatch h⟩
      | ok x => exact ⟨rfl, rfl, fun _ => rfl⟩

/-- Opening any closed reader with a list of files. -/
theorem openNames_at (cfg : RConfig) (r : Reader) (f : Str × List Byte) (files : List (Str × List Byte)) (c : Str × List Put) (cs : List (Str × List Put))
    (h : All2 (fun f q => f.1 = q.1 ∧ FileHolds cfg.codec cfg.std f.2 q.2) (f :: files) (c :: cs)) :
    ∃ r', r.close.openNames cfg (f :: files) = (.ok (), r') ∧ At cfg r' c.1 c.2 cs ∧ r'.readMap = false := by
  obtain ⟨r0, h1, h2⟩ := openFiles_at cfg f files c cs h
  refine ⟨_, rfl, ⟨?_, ?_, ?_⟩, rfl⟩
  · have := h2.stream
    cases h1
    exact this
  · have := h2.file
    cases h1
    exact this
  · have := h2.files
    cases h1
    exact this

/-- **C86** for lists of files: whatever a reader has been used for, when it is closed and then opens a list of files, any calls of `readNextEvent` and `readNextRunHeader` give what
a new reader gives: what is in the files. -/
theorem C86_lists (cfg : RConfig) (hcodec : Lossless cfg.codec) (files : List (Str × List Byte)) (contents : List (Str × List Session))
    (h : FilesHold cfg.codec cfg.std files contents) (hne : files ≠ []) (hl : ∀ c ∈ contents, Loadable cfg (allPuts c.2)) (used : Reader) :
    ∃ r', used.close.openNames cfg files = (.ok (), r') ∧ ∀ gs, gets cfg gs r' = .ok (serve cfg gs (contentsOf contents)) := by
  obtain ⟨r, c, cs, -, rfl, -, a4, a5⟩ := open_at cfg hcodec files contents h hne hl
  have h' := holds_files cfg hcodec files _ h
  cases files with
  | nil => exact absurd rfl hne
  | cons f files =>
    obtain ⟨r', b1, b2, -⟩ := openNames_at cfg used f files _ _ h'
    refine ⟨r', b1, fun gs => ?_⟩
    rw [← a4]
    exact gets_serve cfg gs r' _ _ _ b2 (by rw [a4]; exact a5)

/-- What is left of the first use. -/
structure Kept (name : Str) (r : Reader) : Prop where
  files : ∃ bytes, r.files = [(name, bytes)]
  index : r.index = 0
  readMap : r.readMap = false

theorem use_kept (cfg : RConfig) (r : Reader) (first : Str) (h : (r = Reader.new false ∧ first = name) ∨ Kept first r) (bytes : List Byte) (gs : List Get) :
    Kept first (afterGets cfg gs (r.openName cfg name bytes).2).close := by
  have hk : Kept first (r.openName cfg name bytes).2 := by
    rcases h with ⟨rfl, rfl⟩ | ⟨⟨b, h1⟩, h2, h3⟩
    · exact ⟨⟨bytes, rfl⟩, rfl, rfl⟩
    · unfold Reader.openName Reader.openFile
      simp only [h3, Bool.false_eq_true, if_false, h1, List.isEmpty_cons]
      exact ⟨⟨b, rfl⟩, h2, rfl⟩
  obtain ⟨⟨b, h1⟩, h2, h3⟩ := hk
  have hs := gets_same cfg gs _ (show (r.openName cfg name bytes).2.hasNext = false by unfold Reader.hasNext; rw [h1, h2]; rfl)
  exact ⟨⟨b, by show (afterGets cfg gs _).files = _; rw [hs.files, h1]⟩, by show (afterGets cfg gs _).index = _; rw [hs.index, h2], rfl⟩

theorem uses_kept (cfg : RConfig) (uses : List (Str × List Byte × List Get)) (r : Reader) (first : Str) (h : Kept first r) : Kept first (usedBy cfg uses r) := by
  induction uses generalizing r with
  | nil => exact h
  | cons u uses ih => exact ih _ (use_kept cfg r first (.inr h) _ _)

/-- **C86** fails for single names: a reader opens some file and makes any calls, then opens others and makes calls, and is closed after each of them. Whatever these files hold, when it opens another
one, then everything in that is read as if it came from the first file: run headers get the name of the first file as parameter `LCIOFileName`. -/
theorem C86_fails_file_name (cfg : RConfig) (hcodec : Lossless cfg.codec) (first : Str) (bytes1 : List Byte) (gs1 : List Get) (uses : List (Str × List Byte × List Get))
    (ss : List Session) (hs : SessionsOk cfg.codec cfg.std ss) (hl : Loadable cfg (allPuts ss)) (name : Str) :
    ∃ bytes r', fileAfter cfg.codec cfg.std ss = .ok (some bytes) ∧
      (usedBy cfg ((first, bytes1, gs1) :: uses) (Reader.new false)).openName cfg name bytes = (.ok (), r') ∧
      ∀ gs, gets cfg gs r' = .ok (serve cfg gs ((allPuts ss).map fun p => (first, p))) := by
  obtain ⟨cs, last, f, bytes, -, h1, -⟩ := fileAfter_content cfg.codec hcodec cfg.std ss hs
  obtain ⟨⟨b, k1⟩, k2, k3⟩ := uses_kept cfg uses _ first (use_kept cfg (Reader.new false) first (.inl ⟨rfl, rfl⟩) bytes1 gs1)
  obtain ⟨r0, c, cs, a1, a2, a3, a4, a5⟩ := open_at cfg hcodec [(first, bytes)] [(first, ss)] (Lcio.All2.cons ⟨rfl, h1, .inl hs⟩ (Lcio.All2.nil _)) (by simp) (by
    intro c hc
    rw [List.mem_singleton.1 hc]
    exact hl)
  simp only [List.cons.injEq] at a2
  obtain ⟨rfl, rfl⟩ := a2
  have hits : contentsOf [(first, ss)] = (allPuts ss).map fun p => (first, p) := by simp [contentsOf, items]
  rw [hits] at a4 a5
  unfold usedBy
  generalize usedBy cfg uses (afterGets cfg gs1 ((Reader.new false).openName cfg first bytes1).2).close = r at k1 k2 k3
  have e : r.openName cfg name bytes = (.ok (), { r with stream := { bytes := bytes } }) := by
    unfold Reader.openName Reader.openFile
    simp only [k3, Bool.false_eq_true, if_false, k1, List.isEmpty_cons]
  refine ⟨bytes, _, h1, e, fun gs => ?_⟩
  rw [← a4]
  refine gets_serve cfg gs _ _ _ _ (⟨?_, ?_, ?_⟩ : At cfg _ first (allPuts ss) []) (by rw [a4]; exact a5)
  · have := a3.stream
    cases a1
    exact this
  · unfold Reader.fileName
    simp only [k1, k2]
    rfl
  · simp only [k1, k2]
    exact Lcio.All2.nil _

theorem serve_event_names (cfg : RConfig) (a b : Str) (ps : List Put) (gs : List Get) (hg : ∀ g ∈ gs, g = .event) :
    serve cfg gs (ps.map fun p => (a, p)) = serve cfg gs (ps.map fun p => (b, p)) := by
  induction gs generalizing ps with
  | nil => rfl
  | cons g gs ih =>
    obtain rfl := hg g (by simp)
    unfold serve
    have hd : ∀ c : Str, (ps.map fun p => (c, p)).dropWhile (fun x => !Get.wants .event x.2) = (ps.dropWhile fun p => !Get.wants .event p).map fun p => (c, p) := by
      intro c
      induction ps with
      | nil => rfl
      | cons p ps ih2 =>
        cases hw : Get.wants .event p with
        | true => simp [hw]
        | false => simp [hw, ih2]
    rw [hd, hd]
    cases he : ps.dropWhile fun p => !Get.wants .event p with
    | nil => rfl
    | cons p rest =>
      simp only [List.map_cons]
      rw [ih rest fun x hx => hg x (by simp [hx])]
      congr 1
      have hw : Get.wants .event p = true := by
        have := (dropWhile_head _ _ _ _ he).1
        simpa using this
      cases p with
      | run h buf => simp [Get.wants, Put.isEvent] at hw
      | event h cols buf => rfl

/-- **C86** for single names, as far as it holds: the events are those in the file, however the reader was used for single files before. Missing: run headers, see `C86_fails_file_name`,
and readers that were used for a list of files, see `C86_fails_continues`. -/
theorem C86_events_partial (cfg : RConfig) (hcodec : Lossless cfg.codec) (uses : List (Str × List Byte × List Get))
    (ss : List Session) (hs : SessionsOk cfg.codec cfg.std ss) (hl : Loadable cfg (allPuts ss)) (name : Str) :
    ∃ bytes r', fileAfter cfg.codec cfg.std ss = .ok (some bytes) ∧ (usedBy cfg uses (Reader.new false)).openName cfg name bytes = (.ok (), r') ∧
      ∀ n, gets cfg (List.replicate n .event) r' = .ok (serve cfg (List.replicate n .event) ((allPuts ss).map fun p => (name, p))) := by
  cases uses with
  | nil =>
    obtain ⟨bytes, r', h1, h2, h3⟩ : ∃ bytes r, fileAfter cfg.codec cfg.std ss = .ok (some bytes) ∧ Reader.openFiles cfg false [(name, bytes)] = (.ok (), r) ∧
        ∀ gs, gets cfg gs r = .ok (serve cfg gs ((allPuts ss).map fun p => (name, p))) := by
      obtain ⟨b, r, a1, a2, -⟩ := C31_in_order cfg hcodec ss hs hl name []
      refine ⟨b, r, a1, a2, fun gs => ?_⟩
      obtain ⟨b', r', c1, c2, c3, -⟩ := C31_in_order cfg hcodec ss hs hl name gs
      rw [a1] at c1
      cases c1
      rw [a2] at c2
      simp only [Prod.mk.injEq, true_and] at c2
      rw [c2]; exact c3
    exact ⟨bytes, r', h1, by rw [← h2]; rfl, fun n => h3 _⟩
  | cons u uses =>
    obtain ⟨first, bytes1, gs1⟩ := u
    obtain ⟨bytes, r', h1, h2, h3⟩ := C86_fails_file_name cfg hcodec first bytes1 gs1 uses ss hs hl name
    refine ⟨bytes, r', h1, h2, fun n => ?_⟩
    rw [h3, serve_event_names cfg first name _ _ fun g hg => List.eq_of_mem_replicate hg]

/-- **C86** fails after a list of files: a reader opens a list of files, is closed, and opens another file by its name. Then everything in this file is read, and after that what is in the second and
later files of the list. -/
theorem C86_fails_continues (cfg : RConfig) (hcodec : Lossless cfg.codec) (files : List (Str × List Byte)) (c : Str × List Session) (cs : List (Str × List Session))
    (h : FilesHold cfg.codec cfg.std files (c :: cs)) (hl : ∀ x ∈ cs, Loadable cfg (allPuts x.2))
    (ss : List Session) (hs : SessionsOk cfg.codec cfg.std ss) (hl' : Loadable cfg (allPuts ss)) (direct : Bool) (name : Str) :
    ∃ bytes r', fileAfter cfg.codec cfg.std ss = .ok (some bytes) ∧ ((Reader.new direct).openNames cfg files).2.close.openName cfg name bytes = (.ok (), r') ∧
      ∀ gs, gets cfg gs r' = .ok (serve cfg gs ((allPuts ss).map (fun p => (c.1, p)) ++ contentsOf cs)) := by
  obtain ⟨ch, last, f, bytes, -, h1, -⟩ := fileAfter_content cfg.codec hcodec cfg.std ss hs
  cases files with
  | nil => have := h.1; simp at this
  | cons f files =>
    have h' := holds_files cfg hcodec _ _ h
    -- what is kept
    have hk : ((Reader.new direct).openNames cfg (f :: files)).2.files = f :: files ∧ ((Reader.new direct).openNames cfg (f :: files)).2.index = 0 := by
      rw [(new_opens cfg direct f files).1]
      unfold Reader.openFiles Reader.openFile
      simp only
      split
      · split <;> exact ⟨rfl, rfl⟩
      · exact ⟨rfl, rfl⟩
    generalize ((Reader.new direct).openNames cfg (f :: files)).2 = r at hk
    obtain ⟨k1, k2⟩ := hk
    refine ⟨bytes, { r.close with stream := { bytes := bytes } }, h1, ?_, fun gs => ?_⟩
    · unfold Reader.openName Reader.openFile Reader.close
      simp only [Bool.false_eq_true, if_false, k1, List.isEmpty_cons]
    · obtain ⟨r0, c0, cs0, a1, a2, a3, -, -⟩ := open_at cfg hcodec [(name, bytes)] [(name, ss)] (Lcio.All2.cons ⟨rfl, h1, .inl hs⟩ (Lcio.All2.nil _)) (by simp) (by
        intro c hc
        rw [List.mem_singleton.1 hc]
        exact hl')
      simp only [List.cons.injEq] at a2
      obtain ⟨rfl, rfl⟩ := a2
      obtain ⟨b, rest', e1, ⟨e0, -⟩, e3⟩ := h'.cons_inv
      simp only [List.map_cons, List.cons.injEq] at e1
      obtain ⟨rfl, rfl⟩ := e1
      have hat : At cfg { r.close with stream := { bytes := bytes } } c.1 (allPuts ss) (cs.map fun c => (c.1, allPuts c.2)) := by
        refine ⟨?_, ?_, ?_⟩
        · have := a3.stream
          cases a1
          exact this
        · unfold Reader.fileName Reader.close
          simp only [k1, k2, List.getElem?_cons_zero]
          rw [e0]
        · unfold Reader.close
          simp only [k1, k2]
          exact e3
      have hf : following c.1 (allPuts ss) (cs.map fun c => (c.1, allPuts c.2)) = (allPuts ss).map (fun p => (c.1, p)) ++ contentsOf cs := rfl
      rw [← hf]
      refine gets_serve cfg gs _ _ _ _ hat fun x hx => ?_
      rw [hf] at hx
      rcases List.mem_append.1 hx with hx | hx
      · obtain ⟨p, hp, rfl⟩ := List.mem_map.1 hx
        exact hl' p hp _
      · obtain ⟨y, hy, hz⟩ := List.mem_flatMap.1 hx
        obtain ⟨p, hp, rfl⟩ := List.mem_map.1 hz
        obtain ⟨c', hc', rfl⟩ := List.mem_map.1 hy
        exact hl c' hc' p hp _

/-- **C86** fails for closed readers: what was opened before can still be read. -/
theorem C86_fails_closed (cfg : RConfig) (hcodec : Lossless cfg.codec) (ss : List Session) (hs : SessionsOk cfg.codec cfg.std ss) (hl : Loadable cfg (allPuts ss)) (name : Str) :
    ∃ bytes r, fileAfter cfg.codec cfg.std ss = .ok (some bytes) ∧ (Reader.new false).openName cfg name bytes = (.ok (), r) ∧
      ∀ before, none ∉ serve cfg before ((allPuts ss).map fun p => (name, p)) →
        ∀ gs, gets cfg gs (afterGets cfg before r).close = .ok (serve cfg gs (remaining before ((allPuts ss).map fun p => (name, p)))) := by
  obtain ⟨ch, last, f, bytes, -, h1, -⟩ := fileAfter_content cfg.codec hcodec cfg.std ss hs
  obtain ⟨r0, c, cs, a1, a2, a3, a4, a5⟩ := open_at cfg hcodec [(name, bytes)] [(name, ss)] (Lcio.All2.cons ⟨rfl, h1, .inl hs⟩ (Lcio.All2.nil _)) (by simp) (by
    intro c hc
    rw [List.mem_singleton.1 hc]
    exact hl)
  simp only [List.cons.injEq] at a2
  obtain ⟨rfl, rfl⟩ := a2
  have hits : contentsOf [(name, ss)] = (allPuts ss).map fun p => (name, p) := by simp [contentsOf, items]
  rw [hits] at a4 a5
  refine ⟨bytes, r0, h1, by rw [← a1]; rfl, fun before hb gs => ?_⟩
  obtain ⟨name', ps', rest', b1, b2, -, b4⟩ := gets_at cfg before _ _ _ _ a3 (by rw [a4]; exact a5) (by rw [a4]; exact hb)
  rw [a4] at b2 b4
  rw [← b2]
  exact gets_serve cfg gs _ _ _ _ ⟨b1.stream, b1.file, b1.files⟩ fun x hx => a5 x (b4 x hx)

/-- **C86** fails for readers for direct access: after such a reader, in whatever state, has been closed and opens files again, no run header is found by its number. -/
theorem C86_fails_direct (cfg : RConfig) (used : Reader) (name : Str) (bytes : List Byte) (run : W32) :
    (((used.close.openName cfg name bytes).2).readRunHeader cfg run).1 = .ok none := by
  have h : (used.close.openName cfg name bytes).2.readMap = false := by
    unfold Reader.openName Reader.openFile Reader.close
    simp only [Bool.false_eq_true, if_false]
    split <;> rfl
  unfold Reader.readRunHeader
  rw [if_neg (by rw [h]; simp)]

/-! ## Cases -/

/-- A reader that read one event of a file of five bytes (and failed) and one of a good file, and then opens a third: events are found, and so are run headers, with a wrong name. -/
example : ∃ bytes r', fileAfter sampleCfg.codec sampleCfg.std directSessions = .ok (some bytes) ∧
    (usedBy sampleCfg [(str "a", [1, 2, 3, 4, 5], [.event]), (str "b", twice, [.event, .run])] (Reader.new false)).openName sampleCfg (str "c") bytes = (.ok (), r') ∧
    ∀ gs, gets sampleCfg gs r' = .ok (serve sampleCfg gs ((allPuts directSessions).map fun p => (str "a", p))) :=
  C86_fails_file_name sampleCfg idCodec_lossless (str "a") _ _ _ directSessions directSessions_ok (storable_loadable sampleCfg _ directSessions_storable) (str "c")

/-- The names that run headers get. -/
def namesGot (r : Reader) : List (Option (List Str)) :=
  match gets sampleCfg [.run] r with
  | .ok ds => ds.map fun d => match d with
    | some (.run h) => some ((h.params.strs.filter fun x => x.1 = str "LCIOFileName").flatMap (·.2))
    | _ => none
  | _ => []

/-- The same file twice, with two names. -/
example : namesGot ((Reader.new false).openName sampleCfg (str "a") twice).2 = [some [str "a"]] ∧
    namesGot ((usedBy sampleCfg [(str "a", twice, [])] (Reader.new false)).openName sampleCfg (str "b") twice).2 = [some [str "a"]] := by
  decide +kernel

/-- A list of two files with two events each, and then another file with one event: three events are read. -/
example :
    let file := fun n => fileOfSessions [⟨false, [.event { run := n, evt := 0 } [] ([], []), .event { run := n, evt := 1 } [] ([], [])]⟩]
    let r := (((Reader.new false).openNames sampleCfg [(str "a", file 1), (str "b", file 2)]).2.close.openName sampleCfg (str "c") (file 3)).2
    numbers (gets sampleCfg [.event, .event, .event, .event, .event] r) = .ok [some (3, some 0), some (3, some 1), some (2, some 0), some (2, some 1), none] := by
  decide +kernel

/-- **C86** fails for readers for direct access that are not closed: the event map of the second file has the events of the first too. Reading one of them gives an event of the second file, with
other numbers. -/
theorem C86_fails_not_closed :
    let file := fun n => fileOfSessions [⟨false, [.event { run := n, evt := 0 } [] ([], []), .event { run := n, evt := 1 } [] ([], [])]⟩]
    let r := (((Reader.new true).openName sampleCfg (str "a") (file 1)).2.openName sampleCfg (str "b") (file 2)).2
    (r.getEvents sampleCfg).1 = .ok [(1, 0), (1, 1), (2, 0), (2, 1)] ∧
    ((r.readEvent sampleCfg 1 1).1.toOption.join.map fun e => (e.1.run, e.1.evt)) = some (2, 1) := by
  decide +kernel

end Props
