import Verif.Util.Anajob
import Verif.Spec.Anajob
import Verif.Props.Reopen
import Verif.Props.DumpEvent
/-
C105: `anajob`.
-/
namespace Props
open Sio Spec Lcio Util

/-- A file and what is known of it. -/
def AnaFile (cfg : RConfig) (disk : Str → Option (List Byte)) (c : Str × List Session) : Prop :=
  SessionsOk cfg.codec cfg.std c.2 ∧ DirectOk c.2 ∧ Loadable cfg (allPuts c.2) ∧
    ∃ bytes, disk c.1 = some bytes ∧ fileAfter cfg.codec cfg.std c.2 = .ok (some bytes) ∧ bytes.length < 2 ^ 31

/-- The event map of a file, made by an access manager that was cleared: the same as that of a new one. -/
theorem map_reports_cleared (cfg : RConfig) (hcodec : Lossless cfg.codec) (ss : List Session) (hs : SessionsOk cfg.codec cfg.std ss) (hd : DirectOk ss)
    (hl : Loadable cfg (allPuts ss)) (bytes : List Byte) (hb : fileAfter cfg.codec cfg.std ss = .ok (some bytes)) (hlen : bytes.length < 2 ^ 31) (m : RaMgr) :
    ∃ ra b, m.clear.createEventMap cfg.codec { bytes := bytes } = (.ok b, { bytes := bytes }, ra) ∧ Reports (allPuts ss) ra.map := by
  obtain ⟨bytes', h1, h2⟩ := map_reports cfg hcodec ss hs hd hl
  rw [hb] at h1
  obtain rfl := Option.some.inj (Except.ok.inj h1)
  obtain ⟨ra, b, e1, e2⟩ := h2 hlen
  obtain ⟨cs, last, f, bytes', -, g2, g3⟩ := fileAfter_content cfg.codec hcodec cfg.std ss hs
  rw [hb] at g2
  obtain rfl := Option.some.inj (Except.ok.inj g2)
  cases g3 with
  | some h a ha r hr =>
    subst ha
    have hsz : Lcio.sizeOf cs < 2 ^ 63 := by rw [List.length_append] at hlen; unfold Lcio.sizeOf; omega
    obtain ⟨m1, a1, a2, -⟩ := createEventMap_eq cfg.codec h hsz r hr {} rfl rfl
    obtain ⟨m2, b1, b2, -⟩ := createEventMap_eq cfg.codec h hsz r hr m.clear rfl rfl
    rw [a1] at e1
    simp only [Prod.mk.injEq, true_and] at e1
    obtain ⟨-, rfl⟩ := e1
    exact ⟨m2, true, b1, by rw [b2, ← a2]; exact e2⟩

/-- The numbers of the files, whatever the reader has been used for. -/
theorem anaNumbers_eq (cfg : RConfig) (hcodec : Lossless cfg.codec) (disk : Str → Option (List Byte)) (contents : List (Str × List Session)) (h : ∀ c ∈ contents, AnaFile cfg disk c) :
    ∀ r : Reader, ∃ r' : Reader, anaNumbers cfg disk (contents.map (·.1)) r.close =
      .ok (contents.map (fun c => .numbers c.1 (Spec.runsIn (allPuts c.2)) (Spec.eventsIn (allPuts c.2))), r'.close) := by
  induction contents with
  | nil => intro r; exact ⟨r, rfl⟩
  | cons c contents ih =>
    intro r
    obtain ⟨hs, hd, hl, bytes, h1, h2, h3⟩ := h c (List.mem_cons_self ..)
    obtain ⟨ra, b, e1, e2⟩ := map_reports_cleared cfg hcodec c.2 hs hd hl bytes h2 h3 r.ra
    have ho : ∃ r1 : Reader, r.close.openName cfg c.1 bytes = (.ok (), r1) ∧ r1.readMap = false ∧ r1.ra = r.ra.clear ∧ r1.stream = { bytes := bytes } := by
      unfold Reader.openName Reader.openFile Reader.close
      simp only [Bool.false_eq_true, if_false]
      refine ⟨_, rfl, ?_⟩
      split <;> exact ⟨rfl, rfl, rfl⟩
    obtain ⟨r1, o1, o2, o3, o4⟩ := ho
    have hn : r1.needMap cfg = (.ok (), { r1 with readMap := true, stream := { bytes := bytes }, ra := ra }) := by
      unfold Reader.needMap
      rw [if_neg (by rw [o2]; simp), o3, o4, e1]
    have hn2 : ({ r1 with readMap := true, stream := { bytes := bytes }, ra := ra } : Reader).needMap cfg = (.ok (), { r1 with readMap := true, stream := { bytes := bytes }, ra := ra }) := by
      unfold Reader.needMap
      rw [if_pos rfl]
    obtain ⟨-, c2, -⟩ := calls_of_map cfg r1 _ hn rfl
    obtain ⟨c1, -⟩ := calls_of_map cfg _ _ hn2 rfl
    obtain ⟨r', f⟩ := ih (fun c hc => h c (List.mem_cons_of_mem _ hc)) { r1 with readMap := true, stream := { bytes := bytes }, ra := ra }
    refine ⟨r', ?_⟩
    simp only [List.map_cons, anaNumbers, h1]
    rw [o1]
    simp only
    rw [c2]
    simp only
    rw [c1]
    simp only
    rw [f]
    simp only
    rw [e2.runs, e2.events]

theorem filesNamed_eq (cfg : RConfig) (disk : Str → Option (List Byte)) (contents : List (Str × List Session)) (h : ∀ c ∈ contents, AnaFile cfg disk c) :
    ∃ files, filesNamed disk (contents.map (·.1)) = .ok files ∧ FilesHold cfg.codec cfg.std files contents := by
  induction contents with
  | nil => exact ⟨[], rfl, Lcio.All2.nil _⟩
  | cons c contents ih =>
    obtain ⟨hs, -, -, bytes, h1, h2, -⟩ := h c (List.mem_cons_self ..)
    obtain ⟨files, e1, e2⟩ := ih fun c hc => h c (List.mem_cons_of_mem _ hc)
    refine ⟨(c.1, bytes) :: files, ?_, Lcio.All2.cons ⟨rfl, h2, .inl hs⟩ e2⟩
    simp only [List.map_cons, filesNamed, h1, e1]

theorem anaRuns_eq (cfg : RConfig) : ∀ (n : Nat) (hs : List RunHeader) (r : Reader), allRuns cfg n r = .ok hs → ∃ r', anaRuns cfg n r = .ok (hs.map .run, r') := by
  intro n
  induction n with
  | zero => intro hs r h; simp [allRuns] at h
  | succ n ih =>
    intro hs r h
    unfold allRuns at h
    unfold anaRuns
    split at h
    · cases h
    · rename_i r' hr
      rw [hr]
      cases h
      exact ⟨_, rfl⟩
    · rename_i x r' hr
      rw [hr]
      simp only
      split at h
      · cases h
      · rename_i l hl
        obtain ⟨r2, e⟩ := ih _ _ hl
        rw [e]
        cases h
        exact ⟨_, rfl⟩

theorem anaEvents_eq (cfg : RConfig) : ∀ (n k : Nat) (es : List EventData) (r : Reader), allEvents cfg n r = .ok es →
    anaEvents cfg n k r = .ok (es.map .event ++ [.total (k + es.length)]) := by
  intro n
  induction n with
  | zero => intro k es r h; simp [allEvents] at h
  | succ n ih =>
    intro k es r h
    unfold allEvents at h
    unfold anaEvents
    split at h
    · cases h
    · rename_i r' hr
      rw [hr]
      cases h
      rfl
    · rename_i x r' hr
      rw [hr]
      simp only
      split at h
      · cases h
      · rename_i l hl
        rw [ih (k + 1) _ _ hl]
        cases h
        simp only [List.map_cons, List.cons_append, List.length_cons]
        rw [show k + 1 + l.length = k + (l.length + 1) by omega]

/-- What is delivered for a run header or an event is one. -/
theorem delivery_kind (cfg : RConfig) (n : Str) (p : Put) :
    (p.isEvent = false → ∃ h, delivery cfg n p = some (.run h)) ∧ (p.isEvent = true → asRun (delivery cfg n p) = none ∧ (delivery cfg n p ≠ none → ∃ e, delivery cfg n p = some (.event e))) := by
  cases p with
  | run h buf => exact ⟨fun _ => ⟨_, by simp only [delivery, Put.loadedRun, Option.map_some]; rfl⟩, (nomatch ·)⟩
  | event h cols buf =>
    refine ⟨(nomatch ·), fun _ => ?_⟩
    simp only [delivery]
    cases storeLoadEvent cfg.std cfg.ignoreNull [] cfg.wanted buf 0 1 h cols with
    | error e => exact ⟨rfl, fun h => absurd rfl h⟩
    | ok e => exact ⟨rfl, fun _ => ⟨_, rfl⟩⟩

theorem delivered_runs (cfg : RConfig) (its : List (Str × Put)) :
    (its.filter (fun x => !x.2.isEvent)).map (fun x => delivery cfg x.1 x.2) = (runHeadersIn cfg its).map (fun e => some (.run e)) := by
  unfold runHeadersIn
  induction its with
  | nil => rfl
  | cons x its ih =>
    obtain ⟨h1, h2⟩ := delivery_kind cfg x.1 x.2
    cases hx : x.2.isEvent with
    | false =>
      obtain ⟨h, e⟩ := h1 hx
      rw [List.filter_cons_of_pos (by simp [hx]), List.map_cons, ih, List.filterMap_cons, e]
      rfl
    | true =>
      rw [List.filter_cons_of_neg (by simp [hx]), ih, List.filterMap_cons, (h2 hx).1]

theorem delivered_events (cfg : RConfig) (its : List (Str × Put)) (hl : ∀ x ∈ its, delivery cfg x.1 x.2 ≠ none) :
    (its.filter (fun x => x.2.isEvent)).map (fun x => delivery cfg x.1 x.2) = (eventDataIn cfg its).map (fun e => some (.event e)) := by
  unfold eventDataIn
  induction its with
  | nil => rfl
  | cons x its ih =>
    have ih := ih fun x hx => hl x (List.mem_cons_of_mem _ hx)
    obtain ⟨h1, h2⟩ := delivery_kind cfg x.1 x.2
    cases hx : x.2.isEvent with
    | false =>
      obtain ⟨h, e⟩ := h1 hx
      rw [List.filter_cons_of_neg (by simp [hx]), ih, List.filterMap_cons, e]
      rfl
    | true =>
      obtain ⟨d, e⟩ := (h2 hx).2 (hl x (List.mem_cons_self ..))
      rw [List.filter_cons_of_pos (by simp [hx]), List.map_cons, ih, List.filterMap_cons, e]
      rfl

/-- **C105**, for files that LCIO wrote and closed, with at least one name: for each file the numbers of different run headers and events in it are printed; then all run headers of all
files, in order, then all events, in order, and how many these are. If `LCIO_READ_COL_NAMES` is set (`env`), the events have just those collections (`dumpConfig`, see C101).

Missing: files of 2 GiB and more, files with indices that are not lossless or with negative event numbers (see C25, C85). -/
theorem C105_partial (cfg : RConfig) (hcodec : Lossless cfg.codec) (env : Option Str) (disk : Str → Option (List Byte)) (contents : List (Str × List Session)) (hne : contents ≠ [])
    (h : ∀ c ∈ contents, AnaFile (dumpConfig cfg env) disk c) (fuel : Nat) (hfuel : (contentsOf contents).length < fuel) :
    anajob cfg disk env fuel (contents.map (·.1)) = .ok (some (
      contents.map (fun c => .numbers c.1 (Spec.runsIn (allPuts c.2)) (Spec.eventsIn (allPuts c.2))) ++
      (runHeadersIn (dumpConfig cfg env) (contentsOf contents)).map .run ++
      ((eventDataIn (dumpConfig cfg env) (contentsOf contents)).map .event ++ [.total (eventDataIn (dumpConfig cfg env) (contentsOf contents)).length]))) := by
  have hcodec' : Lossless (dumpConfig cfg env).codec := by cases env <;> exact hcodec
  unfold anajob
  generalize dumpConfig cfg env = cfg at *
  rw [if_neg (by simpa using hne)]
  obtain ⟨r, e1⟩ := anaNumbers_eq cfg hcodec' disk contents h (Reader.new false)
  rw [show (Reader.new false).close = Reader.new false from rfl] at e1
  rw [e1]
  obtain ⟨files, e2, e3⟩ := filesNamed_eq cfg disk contents h
  rw [e2]
  have hf : files ≠ [] := by
    intro h0
    rw [h0] at e3
    have := e3.1
    exact hne (List.length_eq_zero_iff.1 this.symm)
  have hload : ∀ c ∈ contents, Loadable cfg (allPuts c.2) := fun c hc => (h c hc).2.2.1
  have hdel : ∀ x ∈ contentsOf contents, delivery cfg x.1 x.2 ≠ none := by
    intro x hx
    unfold contentsOf items at hx
    obtain ⟨y, hy, hz⟩ := List.mem_flatMap.1 hx
    obtain ⟨p, hp, rfl⟩ := List.mem_map.1 hz
    obtain ⟨c', hc', rfl⟩ := List.mem_map.1 hy
    exact hload c' hc' p hp _
  have hlen1 : (runHeadersIn cfg (contentsOf contents)).length < fuel := by
    have : (runHeadersIn cfg (contentsOf contents)).length ≤ (contentsOf contents).length := List.length_filterMap_le ..
    omega
  have hlen2 : (eventDataIn cfg (contentsOf contents)).length < fuel := by
    have : (eventDataIn cfg (contentsOf contents)).length ≤ (contentsOf contents).length := List.length_filterMap_le ..
    omega
  obtain ⟨r1, f1, f2⟩ := C86_lists cfg hcodec' files contents e3 hf hload r
  simp only
  rw [f1]
  obtain ⟨r2, g⟩ := anaRuns_eq cfg fuel _ r1 (allRuns_serve cfg _ fuel _ r1 hlen1 (delivered_runs cfg _) f2)
  simp only
  rw [g]
  obtain ⟨r3, k1, k2⟩ := C86_lists cfg hcodec' files contents e3 hf hload r2
  simp only
  rw [k1]
  simp only
  rw [anaEvents_eq cfg fuel 0 _ r3 (allEvents_serve cfg _ fuel _ r3 hlen2 (delivered_events cfg _ hdel) k2)]
  simp

/-- It fails for events with the same numbers: then the number of events that is printed for the file is smaller than the number of its events, which are all printed. -/
theorem C105_fails_same_numbers (cfg : RConfig) (c : Str × List Session) (hl : Loadable cfg (allPuts c.2)) (h : ¬ (((allPuts c.2).filter Put.isEvent).map Put.key).Nodup) :
    Spec.eventsIn (allPuts c.2) < (eventDataIn cfg (contentsOf [c])).length := by
  have hits : contentsOf [c] = (allPuts c.2).map fun p => (c.1, p) := by simp [contentsOf, items]
  have hd := congrArg List.length (delivered_events cfg (contentsOf [c]) (by
    rw [hits]
    intro x hx
    obtain ⟨p, hp, rfl⟩ := List.mem_map.1 hx
    exact hl p hp _))
  rw [List.length_map, List.length_map] at hd
  rw [← hd, hits, List.filter_map, List.length_map]
  have := distinct_length (((allPuts c.2).filter Put.isEvent).map Put.key)
  rw [List.length_map] at this
  unfold Spec.eventsIn
  rcases Nat.lt_or_eq_of_le this.1 with h' | h'
  · exact h'
  · exact absurd (this.2.1 h') h

/-- If one of the files does not exist nothing of the others is shown: the exception is not caught. -/
theorem C105_fails_missing_file (cfg : RConfig) (env : Option Str) (disk : Str → Option (List Byte)) (fuel : Nat) (names : List Str) (name : Str) (h : name ∈ names)
    (hd : disk name = none) : ∃ e, anajob cfg disk env fuel names = .error e := by
  have key : ∀ (cfg : RConfig) (names : List Str) (r : Reader), name ∈ names → ∃ e, anaNumbers cfg disk names r = .error e := by
    intro cfg names
    induction names with
    | nil => intro r h; cases h
    | cons n names ih =>
      intro r h
      unfold anaNumbers
      split
      · exact ⟨_, rfl⟩
      · rename_i bytes hb
        have hmem : name ∈ names := by
          rcases List.mem_cons.1 h with rfl | h
          · rw [hd] at hb; cases hb
          · exact h
        split
        · exact ⟨_, rfl⟩
        · split
          · exact ⟨_, rfl⟩
          · split
            · exact ⟨_, rfl⟩
            · rename_i r' _
              obtain ⟨e, he⟩ := ih r'.close hmem
              rw [he]
              exact ⟨_, rfl⟩
  unfold anajob
  rw [if_neg (by intro h0; rw [h0] at h; cases h)]
  obtain ⟨e, he⟩ := key (dumpConfig cfg env) names (Reader.new false) h
  rw [he]
  exact ⟨_, rfl⟩

/-- `C105_partial` applies to two files of three sessions each, with a run header and three events, if they are smaller than 2 GiB: there are two lines with the numbers 1 and 3, then two
run headers and six events. -/
example : ∃ bytes, fileAfter sampleCfg.codec sampleCfg.std directSessions = .ok (some bytes) ∧ (bytes.length < 2 ^ 31 → ∃ (rs : List RunHeader) (es : List EventData),
    anajob sampleCfg (fun n => if n = str "a" ∨ n = str "b" then some bytes else none) none 9 [str "a", str "b"] =
      .ok (some ([.numbers (str "a") 1 3, .numbers (str "b") 1 3] ++ rs.map .run ++ (es.map .event ++ [.total 6]))) ∧ rs.length = 2 ∧ es.length = 6) := by
  have hl := storable_loadable sampleCfg _ directSessions_storable
  obtain ⟨cs, last, f, bytes, -, h1, -⟩ := fileAfter_content sampleCfg.codec idCodec_lossless sampleCfg.std directSessions directSessions_ok
  refine ⟨bytes, h1, fun hlen => ?_⟩
  have hd : ∀ x ∈ contentsOf [(str "a", directSessions), (str "b", directSessions)], delivery sampleCfg x.1 x.2 ≠ none := by
    intro x hx
    unfold contentsOf items at hx
    obtain ⟨y, hy, hz⟩ := List.mem_flatMap.1 hx
    obtain ⟨p, hp, rfl⟩ := List.mem_map.1 hz
    obtain ⟨c', hc', rfl⟩ := List.mem_map.1 hy
    simp only [List.mem_cons, List.not_mem_nil, or_false] at hc'
    rcases hc' with rfl | rfl <;> exact hl p hp _
  have e1 := congrArg List.length (delivered_events sampleCfg _ hd)
  have e2 := congrArg List.length (delivered_runs sampleCfg (contentsOf [(str "a", directSessions), (str "b", directSessions)]))
  rw [List.length_map, List.length_map] at e1 e2
  have n1 : ((contentsOf [(str "a", directSessions), (str "b", directSessions)]).filter (fun x => x.2.isEvent)).length = 6 := by decide +kernel
  have n2 : ((contentsOf [(str "a", directSessions), (str "b", directSessions)]).filter (fun x => !x.2.isEvent)).length = 2 := by decide +kernel
  have n3 : (contentsOf [(str "a", directSessions), (str "b", directSessions)]).length < 9 := by decide +kernel
  have n4 : Spec.eventsIn (allPuts directSessions) = 3 := by decide +kernel
  have n5 : Spec.runsIn (allPuts directSessions) = 1 := by decide +kernel
  have := C105_partial sampleCfg idCodec_lossless none (fun n => if n = str "a" ∨ n = str "b" then some bytes else none) [(str "a", directSessions), (str "b", directSessions)] (by simp)
    (by
      intro c hc
      simp only [List.mem_cons, List.not_mem_nil, or_false] at hc
      rcases hc with rfl | rfl
      · exact ⟨directSessions_ok, directSessions_direct, hl, bytes, by simp, h1, hlen⟩
      · exact ⟨directSessions_ok, directSessions_direct, hl, bytes, by simp, h1, hlen⟩) 9 n3
  refine ⟨_, _, this.trans ?_, by rw [← n2]; exact e2.symm, by rw [← n1]; exact e1.symm⟩
  rw [show dumpConfig sampleCfg none = sampleCfg from rfl, ← e1, n1]
  simp only [List.map_cons, List.map_nil, n4, n5]

end Props
