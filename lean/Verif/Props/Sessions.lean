import Verif.Lcio.ListenLemmas
import Verif.Props.EventCases
/-
Properties of writing and sequential reading: C31 and C32.
-/
namespace Props
open Sio Spec Lcio

theorem holds_sessions (cfg : RConfig) (hcodec : Lossless cfg.codec) (ss : List Session) (hs : SessionsOk cfg.codec cfg.std ss) :
    ∃ bytes, fileAfter cfg.codec cfg.std ss = .ok (some bytes) ∧ FileHolds cfg.codec cfg.std bytes (allPuts ss) := by
  obtain ⟨cs, last, f, bytes, h1, h2, h3⟩ := fileAfter_content cfg.codec hcodec cfg.std ss hs
  refine ⟨bytes, h2, ?_⟩
  obtain ⟨rs, h4, h5⟩ := content_layout h3
  refine ⟨rs, h4, ?_⟩
  have e : cs.flatMap Chunk.puts = allPuts ss := by
    have a : ∀ l : List (List Put), (l.filter fun l => !l.isEmpty).flatten = l.flatten := by
      intro l
      induction l with
      | nil => rfl
      | cons x l ih => cases x <;> simp [ih]
    rw [List.flatMap, h1, a]
    rfl
  rwa [e] at h5

theorem holds_files (cfg : RConfig) (hcodec : Lossless cfg.codec) (files : List (Str × List Byte)) (contents : List (Str × List Session))
    (h : FilesHold cfg.codec cfg.std files contents) :
    All2 (fun f q => f.1 = q.1 ∧ FileHolds cfg.codec cfg.std f.2 q.2) files (contents.map fun c => (c.1, allPuts c.2)) := by
  induction contents generalizing files with
  | nil =>
    have := h.1
    simp at this
    subst this
    exact Lcio.All2.nil _
  | cons c contents ih =>
    cases files with
    | nil => have := h.1; simp at this
    | cons f files =>
      obtain ⟨b, rest', e1, ⟨e0, e2, e4⟩, e3⟩ := h.cons_inv
      simp only [List.cons.injEq] at e1
      obtain ⟨rfl, rfl⟩ := e1
      refine Lcio.All2.cons ⟨e0, ?_⟩ (ih files e3)
      rcases e4 with e4 | ⟨compress, e4⟩
      · obtain ⟨bytes, h1, h2⟩ := holds_sessions cfg hcodec c.2 e4
        rw [e2] at h1
        cases h1
        exact h2
      · show FileHolds _ _ f.2 (allPuts c.2)
        rw [e4] at e2 ⊢
        have : fileAfter cfg.codec cfg.std [⟨compress, []⟩] = .ok (some []) := rfl
        rw [this] at e2
        simp only [Except.ok.injEq, Option.some.injEq] at e2
        exact ⟨[], by rw [← e2]; rfl, .nil⟩

/-- **C32**. Files, each written in any number of sessions (or in one session that writes nothing), are given to a reader. Any sequence of calls of
`readNextEvent` and `readNextRunHeader` returns what it returns for one list with all that was written to the files, in the order of the files: each
call gives the next event (run header) that comes after the last thing returned, and null if there is none. After null has been returned, the next
call throws. -/
theorem C32_concatenation (cfg : RConfig) (hcodec : Lossless cfg.codec) (files : List (Str × List Byte)) (contents : List (Str × List Session))
    (h : FilesHold cfg.codec cfg.std files contents) (hne : files ≠ []) (hl : ∀ c ∈ contents, Loadable cfg (allPuts c.2)) (gs : List Get) :
    ∃ r, Reader.openFiles cfg false files = (.ok (), r) ∧ gets cfg gs r = .ok (serve cfg gs (contentsOf contents)) ∧
      (none ∈ serve cfg gs (contentsOf contents) → ∀ g : Get, (g.call cfg (afterGets cfg gs r)).1 = .error .badState) := by
  have h' := holds_files cfg hcodec files contents h
  cases files with
  | nil => exact absurd rfl hne
  | cons f files =>
    cases contents with
    | nil => have := h.1; simp at this
    | cons c contents =>
      obtain ⟨r, h1, h2⟩ := openFiles_at cfg f files _ _ h'
      refine ⟨r, h1, ?_⟩
      have hx : ∀ x ∈ following (c.1, allPuts c.2).1 (c.1, allPuts c.2).2 (contents.map fun c => (c.1, allPuts c.2)), delivery cfg x.1 x.2 ≠ none := by
        intro x hx

        obtain ⟨y, hy, hz⟩ := List.mem_flatMap.1 hx
        obtain ⟨p, hp, rfl⟩ := List.mem_map.1 hz
        rw [← List.map_cons (f := fun c : Str × List Session => (c.1, allPuts c.2))] at hy
        obtain ⟨c', hc', rfl⟩ := List.mem_map.1 hy
        exact hl c' hc' p hp _
      exact ⟨gets_serve cfg gs r _ _ _ h2 hx, fun hn g => gets_after cfg gs r _ _ _ h2 hx hn g⟩

/-- **C31**. After any sessions of a writer (the first creates the file, the others append to it) the file is read with any sequence of calls of
`readNextEvent` and `readNextRunHeader`. Each call gives the next event (run header) in the order of writing, and null if there is none. After null has been returned,
the next call throws. -/
theorem C31_in_order (cfg : RConfig) (hcodec : Lossless cfg.codec) (ss : List Session) (hs : SessionsOk cfg.codec cfg.std ss)
    (hl : Loadable cfg (allPuts ss)) (name : Str) (gs : List Get) :
    ∃ bytes r, fileAfter cfg.codec cfg.std ss = .ok (some bytes) ∧ Reader.openFiles cfg false [(name, bytes)] = (.ok (), r) ∧
      gets cfg gs r = .ok (serve cfg gs ((allPuts ss).map fun p => (name, p))) ∧
      (none ∈ serve cfg gs ((allPuts ss).map fun p => (name, p)) → ∀ g : Get, (g.call cfg (afterGets cfg gs r)).1 = .error .badState) := by
  obtain ⟨bytes, h1, h2⟩ := holds_sessions cfg hcodec ss hs
  obtain ⟨r, h3, h4, h5⟩ := C32_concatenation cfg hcodec [(name, bytes)] [(name, ss)] (Lcio.All2.cons ⟨rfl, h1, .inl hs⟩ (Lcio.All2.nil _)) (by simp)
    (by intro c hc; simp at hc; subst hc; exact hl) gs
  refine ⟨bytes, r, h1, h3, ?_⟩
  have e : contentsOf [(name, ss)] = (allPuts ss).map fun p => (name, p) := by simp [contentsOf, items]
  rw [e] at h4 h5
  exact ⟨h4, h5⟩

/-- Reading events until null is returned. -/
theorem allEvents_serve (cfg : RConfig) (es : List EventData) : ∀ (n : Nat) (its : List (Str × Put)) (r : Reader), es.length < n →
    (its.filter (fun x => x.2.isEvent)).map (fun x => delivery cfg x.1 x.2) = es.map (fun e => some (.event e)) →
    (∀ gs, gets cfg gs r = .ok (serve cfg gs its)) → allEvents cfg n r = .ok es := by
  have key : ∀ its : List (Str × Put), (its.filter (fun x => x.2.isEvent)) = match its.dropWhile (fun x => !x.2.isEvent) with
      | [] => []
      | x :: rest => x :: rest.filter (fun x => x.2.isEvent) := by
    intro its
    induction its with
    | nil => rfl
    | cons x its ih =>
      cases hx : x.2.isEvent with
      | true => simp [hx]
      | false =>
        rw [List.filter_cons_of_neg (by simp [hx]), List.dropWhile_cons_of_pos (by simp [hx])]
        exact ih
  induction es with
  | nil =>
    intro n its r hn h1 h2
    obtain ⟨n, rfl⟩ : ∃ m, n = m + 1 := ⟨n - 1, by simp at hn; omega⟩
    have := h2 [.event]
    rw [key] at h1
    simp only [gets, serve, Get.wants, Get.call] at this
    unfold allEvents
    cases hd : its.dropWhile (fun x => !x.2.isEvent) with
    | cons x rest => rw [hd] at h1; simp at h1
    | nil =>
      rw [hd] at this
      revert this
      cases r.readNextEvent cfg with
      | mk a b => cases a with
        | error e => simp
        | ok o => cases o with
          | none => simp
          | some v => simp
  | cons e es ih =>
    intro n its r hn h1 h2
    obtain ⟨n, rfl⟩ : ∃ m, n = m + 1 := ⟨n - 1, by simp at hn; omega⟩
    rw [key] at h1
    cases hd : its.dropWhile (fun x => !x.2.isEvent) with
    | nil => rw [hd] at h1; simp at h1
    | cons x rest =>
      rw [hd] at h1
      simp only [List.map_cons, List.cons.injEq] at h1
      unfold allEvents
      have h3 := h2 [.event]
      simp only [gets, serve, Get.wants, Get.call, hd, h1.1] at h3
      cases hr : r.readNextEvent cfg with
      | mk a r' =>
        rw [hr] at h3
        cases a with
        | error e => simp at h3
        | ok o => cases o with
          | none => simp at h3
          | some v =>
            simp only [Option.map_some, Except.ok.injEq, List.cons.injEq, Option.some.injEq, Delivery.event.injEq, and_true] at h3
            subst h3
            have := ih n rest r' (by simp at hn; omega) h1.2 ?_
            · simp only [this]
            · intro gs
              have h4 := h2 (.event :: gs)
              simp only [gets, serve, Get.wants, Get.call, hd, h1.1, hr, Option.map_some] at h4
              revert h4
              cases gets cfg gs r' with
              | error e => simp
              | ok ds => simp

/-- Reading run headers until null is returned. -/
theorem allRuns_serve (cfg : RConfig) (es : List RunHeader) : ∀ (n : Nat) (its : List (Str × Put)) (r : Reader), es.length < n →
    (its.filter (fun x => !x.2.isEvent)).map (fun x => delivery cfg x.1 x.2) = es.map (fun e => some (.run e)) →
    (∀ gs, gets cfg gs r = .ok (serve cfg gs its)) → allRuns cfg n r = .ok es := by
  have key : ∀ its : List (Str × Put), (its.filter (fun x => !x.2.isEvent)) = match its.dropWhile (fun x => !!x.2.isEvent) with
      | [] => []
      | x :: rest => x :: rest.filter (fun x => !x.2.isEvent) := by
    intro its
    induction its with
    | nil => rfl
    | cons x its ih =>
      cases hx : x.2.isEvent with
      | false => simp [hx]
      | true =>
        rw [List.filter_cons_of_neg (by simp [hx]), List.dropWhile_cons_of_pos (by simp [hx])]
        exact ih
  induction es with
  | nil =>
    intro n its r hn h1 h2
    obtain ⟨n, rfl⟩ : ∃ m, n = m + 1 := ⟨n - 1, by simp at hn; omega⟩
    have := h2 [.run]
    rw [key] at h1
    simp only [gets, serve, Get.wants, Get.call] at this
    unfold allRuns
    cases hd : its.dropWhile (fun x => !!x.2.isEvent) with
    | cons x rest => rw [hd] at h1; simp at h1
    | nil =>
      rw [hd] at this
      revert this
      cases r.readNextRunHeader cfg with
      | mk a b => cases a with
        | error e => simp
        | ok o => cases o with
          | none => simp
          | some v => simp
  | cons e es ih =>
    intro n its r hn h1 h2
    obtain ⟨n, rfl⟩ : ∃ m, n = m + 1 := ⟨n - 1, by simp at hn; omega⟩
    rw [key] at h1
    cases hd : its.dropWhile (fun x => !!x.2.isEvent) with
    | nil => rw [hd] at h1; simp at h1
    | cons x rest =>
      rw [hd] at h1
      simp only [List.map_cons, List.cons.injEq] at h1
      unfold allRuns
      have h3 := h2 [.run]
      simp only [gets, serve, Get.wants, Get.call, hd, h1.1] at h3
      cases hr : r.readNextRunHeader cfg with
      | mk a r' =>
        rw [hr] at h3
        cases a with
        | error e => simp at h3
        | ok o => cases o with
          | none => simp at h3
          | some v =>
            simp only [Option.map_some, Except.ok.injEq, List.cons.injEq, Option.some.injEq, Delivery.run.injEq, and_true] at h3
            subst h3
            have := ih n rest r' (by simp at hn; omega) h1.2 ?_
            · simp only [this]
            · intro gs
              have h4 := h2 (.run :: gs)
              simp only [gets, serve, Get.wants, Get.call, hd, h1.1, hr, Option.map_some] at h4
              revert h4
              cases gets cfg gs r' with
              | error e => simp
              | ok ds => simp


/-- Events that can be stored can be loaded. -/
theorem storable_loadable (cfg : RConfig) (ps : List Put)
    (hst : ∀ h cols buf, Put.event h cols buf ∈ ps → Storable cfg.std cfg.ignoreNull [] cfg.wanted h cols) : Loadable cfg ps := by
  intro p hp file
  cases p with
  | run h buf => simp [delivery, Put.loadedRun]
  | event h cols buf =>
    obtain ⟨h', L, T, e1, -⟩ := event_loaded cfg.std cfg.ignoreNull [] cfg.wanted h cols (hst h cols buf hp) buf 0 1 (by omega)
    simp only [delivery, e1]
    simp

/-- **C31**. All events are returned in the order of writing, then null: `es` are the events returned. Each is what was written in the sense of
`LoadedEvent`; what this means for the objects in the collections is said in C39-C44 for `storeLoadEvent`, which gives the events here. -/
theorem C31_all_events (cfg : RConfig) (hcodec : Lossless cfg.codec) (ss : List Session) (hs : SessionsOk cfg.codec cfg.std ss)
    (hst : ∀ h cols buf, Put.event h cols buf ∈ allPuts ss → Storable cfg.std cfg.ignoreNull [] cfg.wanted h cols) (name : Str) :
    ∃ bytes r es, fileAfter cfg.codec cfg.std ss = .ok (some bytes) ∧ Reader.openFiles cfg false [(name, bytes)] = (.ok (), r) ∧
      allEvents cfg ((allPuts ss).length + 1) r = .ok es ∧
      All2 (fun p e => ∃ h cols buf T, p = .event h cols buf ∧ storeLoadEvent cfg.std cfg.ignoreNull [] cfg.wanted buf 0 1 h cols = .ok e ∧
        LoadedEvent (wantedCols cfg.wanted (storedCols [] cols)) h e.1 e.2 T (fun _ _ _ => True)) ((allPuts ss).filter Put.isEvent) es := by
  obtain ⟨bytes, h1, h2⟩ := holds_sessions cfg hcodec ss hs
  have hg : ∀ gs, ∃ bytes r, fileAfter cfg.codec cfg.std ss = .ok (some bytes) ∧ Reader.openFiles cfg false [(name, bytes)] = (.ok (), r) ∧
      gets cfg gs r = .ok (serve cfg gs ((allPuts ss).map fun p => (name, p))) := by
    intro gs
    obtain ⟨b, r, a1, a2, a3, -⟩ := C31_in_order cfg hcodec ss hs (storable_loadable cfg _ hst) name gs
    exact ⟨b, r, a1, a2, a3⟩
  obtain ⟨bytes', r, g1, g2, -⟩ := hg []
  rw [h1] at g1
  cases g1
  have hgs : ∀ gs, gets cfg gs r = .ok (serve cfg gs ((allPuts ss).map fun p => (name, p))) := by
    intro gs
    obtain ⟨b, r', a1, a2, a3⟩ := hg gs
    rw [h1] at a1
    cases a1
    rw [g2] at a2
    simp only [Prod.mk.injEq, true_and] at a2
    rw [a2]; exact a3
  have hes : ∀ ps : List Put, (∀ h cols buf, Put.event h cols buf ∈ ps → Storable cfg.std cfg.ignoreNull [] cfg.wanted h cols) →
      ∃ es, (ps.filter Put.isEvent).map (fun p => delivery cfg name p) = es.map (fun e => some (.event e)) ∧ es.length ≤ ps.length ∧
        All2 (fun p e => ∃ h cols buf T, p = .event h cols buf ∧ storeLoadEvent cfg.std cfg.ignoreNull [] cfg.wanted buf 0 1 h cols = .ok e ∧
          LoadedEvent (wantedCols cfg.wanted (storedCols [] cols)) h e.1 e.2 T (fun _ _ _ => True)) (ps.filter Put.isEvent) es := by
    intro ps
    induction ps with
    | nil => intro _; exact ⟨[], rfl, by simp, Lcio.All2.nil _⟩
    | cons p ps ih =>
      intro hp
      obtain ⟨es, a1, a2, a3⟩ := ih fun h cols buf hm => hp h cols buf (by simp [hm])
      cases p with
      | run h buf => exact ⟨es, by simpa [Put.isEvent] using a1, by simp; omega, by simpa [Put.isEvent] using a3⟩
      | event h cols buf =>
        obtain ⟨h', cols', T, b1, b2⟩ := event_final cfg.std cfg.ignoreNull [] cfg.wanted h cols (hp h cols buf (by simp)) buf 0 1 (by omega)
          (fun _ _ _ _ => True) (fun _ _ _ _ _ _ _ _ _ _ _ _ _ _ _ => trivial)
        refine ⟨(h', cols') :: es, ?_, by simp; omega, ?_⟩
        · rw [List.filter_cons, if_pos (by rfl)]
          simp only [List.map_cons, delivery, b1, List.cons.injEq, true_and]
          exact a1
        · rw [List.filter_cons, if_pos (by rfl)]
          exact Lcio.All2.cons ⟨h, cols, buf, T, rfl, b1, b2⟩ a3
  obtain ⟨es, c1, c2, c3⟩ := hes (allPuts ss) hst
  refine ⟨bytes, r, es, h1, g2, ?_, c3⟩
  apply allEvents_serve cfg es _ ((allPuts ss).map fun p => (name, p)) r (by omega) _ hgs
  rw [← c1, List.filter_map, List.map_map]
  rfl

/-- **C31**. All run headers are returned in the order of writing, then null. They are equal to those written, except that the reader puts
the name of the file in the parameter `LCIOFileName` and that the parameters can be changed. -/
theorem C31_all_runs (cfg : RConfig) (hcodec : Lossless cfg.codec) (ss : List Session) (hs : SessionsOk cfg.codec cfg.std ss)
    (hl : Loadable cfg (allPuts ss)) (name : Str) :
    ∃ bytes r, fileAfter cfg.codec cfg.std ss = .ok (some bytes) ∧ Reader.openFiles cfg false [(name, bytes)] = (.ok (), r) ∧
      allRuns cfg ((allPuts ss).length + 1) r = .ok ((allPuts ss).filterMap (Put.loadedRun name)) := by
  have hg : ∀ gs, ∃ bytes r, fileAfter cfg.codec cfg.std ss = .ok (some bytes) ∧ Reader.openFiles cfg false [(name, bytes)] = (.ok (), r) ∧
      gets cfg gs r = .ok (serve cfg gs ((allPuts ss).map fun p => (name, p))) := by
    intro gs
    obtain ⟨b, r, a1, a2, a3, -⟩ := C31_in_order cfg hcodec ss hs hl name gs
    exact ⟨b, r, a1, a2, a3⟩
  obtain ⟨bytes, r, h1, g2, -⟩ := hg []
  have hgs : ∀ gs, gets cfg gs r = .ok (serve cfg gs ((allPuts ss).map fun p => (name, p))) := by
    intro gs
    obtain ⟨b, r', a1, a2, a3⟩ := hg gs
    rw [h1] at a1
    cases a1
    rw [g2] at a2
    simp only [Prod.mk.injEq, true_and] at a2
    rw [a2]; exact a3
  refine ⟨bytes, r, h1, g2, ?_⟩
  apply allRuns_serve cfg _ _ ((allPuts ss).map fun p => (name, p)) r _ _ hgs
  · have := List.length_filterMap_le (Put.loadedRun name) (allPuts ss); omega
  · clear hgs hg h1 hl hs g2
    induction allPuts ss with
    | nil => rfl
    | cons p ps ih =>
      cases p with
      | run h buf => simpa [Put.isEvent, delivery, Put.loadedRun] using ih
      | event h cols buf =>
        rw [List.filterMap_cons_none (by rfl)]
        simpa [Put.isEvent, delivery, Put.loadedRun] using ih

/-! ## C33 -/

/-- A new reader of files stands before what is in them. -/
theorem open_at (cfg : RConfig) (hcodec : Lossless cfg.codec) (files : List (Str × List Byte)) (contents : List (Str × List Session))
    (h : FilesHold cfg.codec cfg.std files contents) (hne : files ≠ []) (hl : ∀ c ∈ contents, Loadable cfg (allPuts c.2)) :
    ∃ r c cs, Reader.openFiles cfg false files = (.ok (), r) ∧ contents = c :: cs ∧ At cfg r c.1 (allPuts c.2) (cs.map fun c => (c.1, allPuts c.2)) ∧
      following c.1 (allPuts c.2) (cs.map fun c => (c.1, allPuts c.2)) = contentsOf contents ∧
      ∀ x ∈ contentsOf contents, delivery cfg x.1 x.2 ≠ none := by
  have h' := holds_files cfg hcodec files contents h
  cases files with
  | nil => exact absurd rfl hne
  | cons f files =>
    cases contents with
    | nil => have := h.1; simp at this
    | cons c contents =>
      obtain ⟨r, h1, h2⟩ := openFiles_at cfg f files _ _ h'
      refine ⟨r, c, contents, h1, rfl, h2, rfl, ?_⟩
      intro x hx
      obtain ⟨y, hy, hz⟩ := List.mem_flatMap.1 hx
      obtain ⟨p, hp, rfl⟩ := List.mem_map.1 hz
      obtain ⟨c', hc', rfl⟩ := List.mem_map.1 hy
      exact hl c' hc' p hp _

/-- **C33**, first part: for `n` ≥ 1. `readStream` with `n` records gives the next `n` run headers and events, in the order of writing, to each listener, or
all of them and an exception for the end of the data if there are fewer. Afterwards reading goes on with the next record. There must be at most one
listener, or processing the events a second time must not change them. Missing: `n` ≤ 0 and other events with more
listeners, see the theorems below. -/
theorem C33_listeners_partial (cfg : RConfig) (hcodec : Lossless cfg.codec) (files : List (Str × List Byte)) (contents : List (Str × List Session))
    (h : FilesHold cfg.codec cfg.std files contents) (hne : files ≠ []) (hl : ∀ c ∈ contents, Loadable cfg (allPuts c.2)) (k : Nat)
    (hk : k ≤ 1 ∨ ∀ x ∈ contentsOf contents, ∀ file e, delivery cfg file x.2 = some (.event e) → finishEvent cfg e = .ok e)
    (n : Nat) (hn : 0 < n) (hmax : n < 2147483647) :
    ∃ r log res r', Reader.openFiles cfg false files = (.ok (), r) ∧ r.readStream cfg k n = (log, res, r') ∧
      log = handed cfg k ((contentsOf contents).take n) ∧ res = (if n ≤ (contentsOf contents).length then .ok () else .error .endOfData) ∧
      (n ≤ (contentsOf contents).length → ∀ gs, gets cfg gs r' = .ok (serve cfg gs ((contentsOf contents).drop n))) := by
  obtain ⟨r, c, cs, h1, h2, h3, h4, h5⟩ := open_at cfg hcodec files contents h hne hl
  have hs : ∀ x ∈ contentsOf contents, Settled cfg k x.2 := fun x hx => hk.imp id fun hk file e he => hk x hx file e he
  obtain ⟨a1, a2⟩ := stream_loop cfg k (r.files.length + 1) r _ _ _ h3 h3.rest_length (by rw [h4]; exact h5) (by rw [h4]; exact hs) n hn (by unfold intMax; omega)
  rw [h4] at a1 a2
  by_cases hc : n ≤ (contentsOf contents).length
  · obtain ⟨r', name', ps', rest', b1, b2, b3⟩ := a1 hc
    refine ⟨r, _, _, r', h1, b1, rfl, by rw [if_pos hc], fun _ gs => ?_⟩
    rw [← b3]
    exact gets_serve cfg gs r' _ _ _ b2 fun x hx => h5 x (by rw [b3] at hx; exact List.mem_of_mem_drop hx)
  · obtain ⟨b1, b2⟩ := a2 (by omega)
    refine ⟨r, (r.readStream cfg k n).1, (r.readStream cfg k n).2.1, (r.readStream cfg k n).2.2, h1, rfl, ?_, ?_, fun hx => absurd hx hc⟩
    · rw [List.take_of_length_le (by omega)]; exact b1
    · rw [if_neg hc]; exact b2

/-- **C33**, second part: `readStream` without a number gives everything that is left and then returns. -/
theorem C33_everything_partial (cfg : RConfig) (hcodec : Lossless cfg.codec) (files : List (Str × List Byte)) (contents : List (Str × List Session))
    (h : FilesHold cfg.codec cfg.std files contents) (hne : files ≠ []) (hl : ∀ c ∈ contents, Loadable cfg (allPuts c.2)) (k : Nat)
    (hk : k ≤ 1 ∨ ∀ x ∈ contentsOf contents, ∀ file e, delivery cfg file x.2 = some (.event e) → finishEvent cfg e = .ok e) :
    ∃ r log r', Reader.openFiles cfg false files = (.ok (), r) ∧ r.readStream cfg k intMax = (log, .ok (), r') ∧ log = handed cfg k (contentsOf contents) := by
  obtain ⟨r, c, cs, h1, h2, h3, h4, h5⟩ := open_at cfg hcodec files contents h hne hl
  have hs : ∀ x ∈ contentsOf contents, Settled cfg k x.2 := fun x hx => hk.imp id fun hk file e he => hk x hx file e he
  have hlen : ∀ c ∈ contents, ((allPuts c.2).length : Int) < intMax := by
    intro c hc
    obtain ⟨i, hi⟩ := List.getElem?_of_mem hc
    have hlt : i < files.length := by rw [h.1]; exact (List.getElem?_eq_some_iff.1 hi).1
    rcases (h.2 i _ _ (List.getElem?_eq_getElem hlt) hi).2.2 with h6 | ⟨b, h6⟩
    · have := h6.count
      unfold intMax; omega
    · rw [h6]; simp [allPuts]; decide
  obtain ⟨a1, a2⟩ := stream_all cfg k (r.files.length + 1) r _ _ _ h3 h3.rest_length (by rw [h4]; exact h5) (by rw [h4]; exact hs)
    (hlen c (by simp [h2])) (by
      intro f hf
      obtain ⟨c', hc', rfl⟩ := List.mem_map.1 hf
      exact hlen c' (by simp [h2, hc']))
  rw [h4] at a1
  refine ⟨r, (r.readStream cfg k intMax).1, (r.readStream cfg k intMax).2.2, h1, ?_, a1⟩
  have a3 : (r.readStream cfg k intMax).2.1 = .ok () := a2
  rw [← a3]

/-- **C33** fails for `n` ≤ 0 if the next record is that of an event: `readStream` reads the header of the event, gives nothing to the listeners, and returns. The
event is lost: the next call of `readNextEvent` throws. -/
theorem C33_fails_for_zero (cfg : RConfig) (hcodec : Lossless cfg.codec) (ss : List Session) (hs : SessionsOk cfg.codec cfg.std ss) (hl : Loadable cfg (allPuts ss))
    (h : EventHeader) (cols : List (Str × Collection)) (buf : Str × Str) (ps : List Put) (hps : allPuts ss = .event h cols buf :: ps) (name : Str) (k : Nat) (n : Int)
    (hn : n ≤ 0) :
    ∃ bytes r r', fileAfter cfg.codec cfg.std ss = .ok (some bytes) ∧ Reader.openFiles cfg false [(name, bytes)] = (.ok (), r) ∧
      r.readStream cfg k n = ([], .ok (), r') ∧ (r'.readNextEvent cfg).1 = .error .ioException := by
  obtain ⟨bytes, h1, h2⟩ := holds_sessions cfg hcodec ss hs
  obtain ⟨r, a1, a2⟩ := openFiles_at cfg (name, bytes) [] (name, allPuts ss) [] (Lcio.All2.cons ⟨rfl, h2⟩ (Lcio.All2.nil _))
  rw [hps] at a2
  have hd := hl (.event h cols buf) (by rw [hps]; simp) name
  have he : ∃ e, delivery cfg name (.event h cols buf) = some (.event e) := by
    simp only [delivery] at hd ⊢
    split
    · rename_i hx; rw [hx] at hd; simp at hd
    · exact ⟨_, rfl⟩
  obtain ⟨e, he⟩ := he
  obtain ⟨r', b1, b2⟩ := stream_zero cfg k n hn r name _ ps [] a2 e he
  exact ⟨bytes, r, r', h1, a1, b1, b2⟩

end Props
