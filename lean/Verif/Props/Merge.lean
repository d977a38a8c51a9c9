import Verif.Util.Merge
import Verif.Props.Copy
import Verif.Props.Sessions
import Verif.Props.Crash
import Verif.Props.SessionCases
/-
C71: merging files.
-/
namespace Props
open Sio Spec Lcio Util

theorem gives_delivery (cfg : RConfig) (g : Get) (x : Str × Put) (d : Delivery) (h : delivery cfg x.1 x.2 = some d) : g.gives d = g.wants x.2 := by
  obtain ⟨f, p⟩ := x
  cases p with
  | run hd buf =>
    simp only [delivery, Put.loadedRun, Option.map_some, Option.some.injEq] at h
    subst h
    cases g <;> rfl
  | event hd cols buf =>
    simp only [delivery] at h
    split at h
    · cases h
    · simp only [Option.some.injEq] at h
      subst h
      cases g <;> rfl

/-- What is returned for things that can all be loaded. -/
theorem serve_inTurn (cfg : RConfig) (gs : List Get) : ∀ (its : List (Str × Put)) (ds : List Delivery),
    All2 (fun x d => delivery cfg x.1 x.2 = some d) its ds → serve cfg gs its = inTurn gs ds := by
  induction gs with
  | nil => intros; rfl
  | cons g gs ih =>
    have hdrop : ∀ (its : List (Str × Put)) (ds : List Delivery), All2 (fun x d => delivery cfg x.1 x.2 = some d) its ds →
        All2 (fun x d => delivery cfg x.1 x.2 = some d) (its.dropWhile fun x => !g.wants x.2) (ds.dropWhile fun d => !g.gives d) := by
      intro its
      induction its with
      | nil =>
        intro ds h
        obtain rfl : ds = [] := List.length_eq_zero_iff.1 h.1.symm
        exact h
      | cons x its ih2 =>
        intro ds h
        obtain ⟨d, ds, rfl, h1, h2⟩ := h.cons_inv
        rw [List.dropWhile_cons, List.dropWhile_cons, gives_delivery cfg g x d h1]
        split
        · exact ih2 ds h2
        · exact h
    intro its ds h
    have h' := hdrop its ds h
    unfold serve inTurn
    revert h'
    generalize (its.dropWhile fun x => !g.wants x.2) = its'
    generalize (ds.dropWhile fun d => !g.gives d) = ds'
    intro h'
    cases its' with
    | nil =>
      obtain rfl : ds' = [] := List.length_eq_zero_iff.1 h'.1.symm
      rfl
    | cons x its' =>
      obtain ⟨d, ds', rfl, h1, h2⟩ := h'.cons_inv
      simp only [h1, ih its' ds' h2]

theorem handed_single (cfg : RConfig) (its : List (Str × Put)) (ds : List Delivery) (h : All2 (fun x d => delivery cfg x.1 x.2 = some d) its ds) :
    (handed cfg 1 its).map (·.2) = ds := by
  induction its generalizing ds with
  | nil =>
    obtain rfl : ds = [] := List.length_eq_zero_iff.1 h.1.symm
    rfl
  | cons x its ih =>
    obtain ⟨d, ds, rfl, h1, h2⟩ := h.cons_inv
    have := ih ds h2
    unfold handed at this ⊢
    rw [List.flatMap_cons, List.map_append, this, h1]
    rfl

/-- The copy of something that is in a file. -/
theorem rewritten (cfg : RConfig) (hsort : SortLaw cfg.std) (hflt : ∀ x, viaFloat cfg.std (viaFloat cfg.std x) = viaFloat cfg.std x)
    (compress : Bool) (limit : Nat) (hz : compress = true → CompressesUpTo cfg.codec limit) (file out : Str) (p : Put) (hr : Rewritable limit cfg.std file p)
    (hst : ∀ h cols buf, p = .event h cols buf → Storable cfg.std cfg.ignoreNull [] cfg.wanted h cols ∧ Copyable (wantedCols cfg.wanted (storedCols [] cols))) :
    ∃ d, delivery cfg file p = some d ∧ ∀ buf, (rewrite buf d).Ok cfg.codec cfg.std compress ∧ (rewrite buf d).key = p.key ∧
      ∃ d', delivery { cfg with wanted := [] } out (rewrite buf d) = some d' ∧ CopyIn out d d' := by
  have hcomp : ∀ name blocks, headerLen name ≤ 60 → dataLen blocks ≤ limit → Writable name blocks → Job.Ok cfg.codec ⟨name, 0, blocks, compress⟩ := by
    intro name blocks h1 h2 h3
    refine ⟨h3, fun hc data hd => ?_⟩
    obtain ⟨comp, e1, e2⟩ := hz hc data (by rw [hd]; exact h2)
    exact ⟨comp, e1, by simp only; omega⟩
  cases p with
  | run h buf0 =>
    refine ⟨_, rfl, fun buf => ?_⟩
    obtain ⟨h1, h2, h3⟩ := hr _ rfl
    exact ⟨⟨h1, hcomp runRecordName _ (by decide) h3 h2⟩, rfl, _, rfl, rfl⟩
  | event h cols buf0 =>
    obtain ⟨h1, h2⟩ := hst h cols buf0 rfl
    obtain ⟨hd, cols1, a1, a2, a3, a4, a5, a6, a7⟩ := copied cfg.std hsort hflt cfg.ignoreNull [] cfg.wanted h cols h1 h2 buf0 0 1 (by omega)
    refine ⟨.event (hd, cols1), by simp only [delivery, a1], fun buf => ⟨⟨?_, ?_⟩, ?_, ?_⟩⟩
    · exact hcomp headerRecordName _ (by decide) (Nat.le_trans a5 hr.1) a4.headerSize
    · exact hcomp eventRecordName _ (by decide) (Nat.le_trans a6 hr.2) a4.event.size
    · show (⟨hd.run, hd.evt⟩ : RunEvent) = ⟨h.run, h.evt⟩
      rw [a2, a3]
    · obtain ⟨h2', cols2, b1, b2⟩ := a7 buf 0 1 (by omega)
      exact ⟨.event (h2', cols2), by simp only [rewrite, delivery, b1], b2⟩

theorem rewritten_all (cfg : RConfig) (hsort : SortLaw cfg.std) (hflt : ∀ x, viaFloat cfg.std (viaFloat cfg.std x) = viaFloat cfg.std x)
    (compress : Bool) (limit : Nat) (hz : compress = true → CompressesUpTo cfg.codec limit) (out : Str) (bufs : Nat → Str × Str) (its : List (Str × Put))
    (hr : ∀ x ∈ its, Rewritable limit cfg.std x.1 x.2)
    (hst : ∀ x ∈ its, ∀ h cols buf, x.2 = .event h cols buf →
      Storable cfg.std cfg.ignoreNull [] cfg.wanted h cols ∧ Copyable (wantedCols cfg.wanted (storedCols [] cols))) :
    ∃ ds, All2 (fun x d => delivery cfg x.1 x.2 = some d) its ds ∧ ∀ i, (∀ q ∈ rewrites bufs i ds, q.Ok cfg.codec cfg.std compress ∧ q.key ∈ its.map (·.2.key)) ∧
      (rewrites bufs i ds).length = its.length ∧
      ∃ ds', All2 (fun q d' => delivery { cfg with wanted := [] } out q = some d') (rewrites bufs i ds) ds' ∧ All2 (CopyIn out) ds ds' := by
  induction its with
  | nil => exact ⟨[], Lcio.All2.nil _, fun i => ⟨by simp [rewrites], rfl, [], Lcio.All2.nil _, Lcio.All2.nil _⟩⟩
  | cons x its ih =>
    obtain ⟨ds, a1, a2⟩ := ih (fun y hy => hr y (by simp [hy])) (fun y hy => hst y (by simp [hy]))
    obtain ⟨d, b1, b2⟩ := rewritten cfg hsort hflt compress limit hz x.1 out x.2 (hr x (by simp)) (hst x (by simp))
    refine ⟨d :: ds, Lcio.All2.cons b1 a1, fun i => ?_⟩
    obtain ⟨c1, c2, d', c3, c4⟩ := b2 (bufs i)
    obtain ⟨e1, e2, ds', e3, e4⟩ := a2 (i + 1)
    refine ⟨?_, by simp [rewrites, e2], d' :: ds', Lcio.All2.cons c3 e3, Lcio.All2.cons c4 e4⟩
    intro q hq
    rcases List.mem_cons.1 hq with rfl | hq
    · exact ⟨c1, by rw [c2]; simp⟩
    · have := e1 q hq
      exact ⟨this.1, by rw [List.map_cons]; exact List.mem_cons_of_mem _ this.2⟩

/-- The file with what was delivered, and what is delivered from it. -/
theorem rewritten_deliveries (cfg : RConfig) (hcodec : Lossless cfg.codec) (hsort : SortLaw cfg.std)
    (hflt : ∀ x, viaFloat cfg.std (viaFloat cfg.std x) = viaFloat cfg.std x) (its : List (Str × Put))
    (hst : ∀ x ∈ its, ∀ h cols buf, x.2 = .event h cols buf →
      Storable cfg.std cfg.ignoreNull [] cfg.wanted h cols ∧ Copyable (wantedCols cfg.wanted (storedCols [] cols)))
    (compress : Bool) (limit : Nat) (hz : compress = true → CompressesUpTo cfg.codec limit)
    (hr : ∀ x ∈ its, Rewritable limit cfg.std x.1 x.2) (hcount : its.length < 2 ^ 27)
    (hruns : ∀ x ∈ its, ∀ y ∈ its,
      -2 ^ 31 ≤ x.2.key.run.toInt - y.2.key.run.toInt ∧ x.2.key.run.toInt - y.2.key.run.toInt < 2 ^ 31) (bufs : Nat → Str × Str) (out : Str) :
    ∃ bytes r' ds ds', All2 (fun x d => delivery cfg x.1 x.2 = some d) its ds ∧ rewriteAll cfg.codec cfg.std compress bufs ds = .ok (some bytes) ∧
      Reader.openFiles { cfg with wanted := [] } false [(out, bytes)] = (.ok (), r') ∧ (∀ gs, gets { cfg with wanted := [] } gs r' = .ok (inTurn gs ds')) ∧
      All2 (CopyIn out) ds ds' ∧ All2 (fun q d' => delivery { cfg with wanted := [] } out q = some d') (rewrites bufs 0 ds) ds' := by
  obtain ⟨ds, a1, a2⟩ := rewritten_all cfg hsort hflt compress limit hz out bufs its hr hst
  obtain ⟨b1, b2, ds', b3, b4⟩ := a2 0
  let cfg' : RConfig := { cfg with wanted := [] }
  let ss : List Session := [⟨compress, rewrites bufs 0 ds⟩]
  have hall : allPuts ss = rewrites bufs 0 ds := by simp [ss, allPuts]
  have hok : SessionsOk cfg.codec cfg.std ss ∨ ∃ c, ss = [⟨c, []⟩] := by
    cases hq : rewrites bufs 0 ds with
    | nil => exact Or.inr ⟨compress, by simp only [ss, hq]⟩
    | cons q qs =>
      refine Or.inl ⟨?_, ⟨_, [], rfl, by rw [hq]; simp⟩, by rw [hall, b2]; exact hcount⟩
      intro s hs
      rw [List.mem_singleton] at hs
      subst hs
      refine ⟨fun p hp => (b1 p hp).1, fun p hp q hq => ?_⟩
      obtain ⟨x, hx, hxp⟩ := List.mem_map.1 (b1 p hp).2
      obtain ⟨y, hy, hyq⟩ := List.mem_map.1 (b1 q hq).2
      rw [← hxp, ← hyq]
      exact hruns x hx y hy
  have hfile : ∃ bytes, fileAfter cfg.codec cfg.std ss = .ok (some bytes) := by
    rcases hok with hok | ⟨c, hok⟩
    · obtain ⟨bytes, e, -⟩ := holds_sessions cfg hcodec ss hok
      exact ⟨bytes, e⟩
    · rw [hok]; exact ⟨[], rfl⟩
  obtain ⟨bytes, hfile⟩ := hfile
  have hwrite : rewriteAll cfg.codec cfg.std compress bufs ds = .ok (some bytes) := by
    unfold rewriteAll
    have := hfile
    unfold fileAfter runSessions Session.run at this
    revert this
    cases ({} : Writer).openNew with
    | error e => intro this; cases this
    | ok w =>
      simp only [bind, Except.bind]
      cases putAll cfg.codec cfg.std compress w (rewrites bufs 0 ds) with
      | error e => intro this; cases this
      | ok w =>
        simp only []
        cases w.close with
        | error e => intro this; cases this
        | ok x =>
          obtain ⟨w, f⟩ := x
          intro this
          simp only [runSessions, Except.ok.injEq] at this
          simp only [this]
          rfl
  have hits : contentsOf [(out, ss)] = (rewrites bufs 0 ds).map fun p => (out, p) := by
    simp only [contentsOf, items, List.map_cons, List.map_nil, List.flatMap_cons, List.flatMap_nil, List.append_nil, hall]
  have hf' : FilesHold cfg'.codec cfg'.std [(out, bytes)] [(out, ss)] := Lcio.All2.cons ⟨rfl, hfile, hok⟩ (Lcio.All2.nil _)
  have hd' : All2 (fun (x : Str × Put) d => delivery cfg' x.1 x.2 = some d) (contentsOf [(out, ss)]) ds' := by
    rw [hits]
    refine ⟨by rw [List.length_map]; exact b3.1, fun i x y hx hy => ?_⟩
    rw [List.getElem?_map] at hx
    cases hp : (rewrites bufs 0 ds)[i]? with
    | none => rw [hp] at hx; cases hx
    | some p =>
      rw [hp] at hx
      simp only [Option.map_some, Option.some.injEq] at hx
      subst hx
      exact b3.2 i p y hp hy
  have hl' : ∀ c ∈ [(out, ss)], Loadable cfg' (allPuts c.2) := by
    intro c hc p hp file
    rw [List.mem_singleton] at hc
    subst hc
    simp only [hall] at hp
    obtain ⟨i, hi⟩ := List.getElem?_of_mem hp
    have hlt : i < ds'.length := by rw [← b3.1]; exact (List.getElem?_eq_some_iff.1 hi).1
    have := b3.2 i p _ hi (List.getElem?_eq_getElem hlt)
    cases p with
    | run h buf => simp [delivery, Put.loadedRun]
    | event h cols buf =>
      simp only [cfg', delivery] at this ⊢
      rw [this]; simp
  obtain ⟨r', f1, -, -⟩ := C32_concatenation cfg' hcodec _ _ hf' (by simp) hl' []
  refine ⟨bytes, r', ds, ds', a1, hwrite, f1, ?_, b4, b3⟩
  intro gs
  obtain ⟨r3, d1, d2, -⟩ := C32_concatenation cfg' hcodec _ _ hf' (by simp) hl' gs
  rw [f1] at d1
  simp only [Prod.mk.injEq, true_and] at d1
  subst d1
  rw [d2, serve_inTurn cfg' gs _ _ hd']

/-- The file with what was delivered. -/
theorem rewritten_file (cfg : RConfig) (hcodec : Lossless cfg.codec) (hsort : SortLaw cfg.std)
    (hflt : ∀ x, viaFloat cfg.std (viaFloat cfg.std x) = viaFloat cfg.std x) (its : List (Str × Put))
    (hst : ∀ x ∈ its, ∀ h cols buf, x.2 = .event h cols buf →
      Storable cfg.std cfg.ignoreNull [] cfg.wanted h cols ∧ Copyable (wantedCols cfg.wanted (storedCols [] cols)))
    (compress : Bool) (limit : Nat) (hz : compress = true → CompressesUpTo cfg.codec limit)
    (hr : ∀ x ∈ its, Rewritable limit cfg.std x.1 x.2) (hcount : its.length < 2 ^ 27)
    (hruns : ∀ x ∈ its, ∀ y ∈ its,
      -2 ^ 31 ≤ x.2.key.run.toInt - y.2.key.run.toInt ∧ x.2.key.run.toInt - y.2.key.run.toInt < 2 ^ 31) (bufs : Nat → Str × Str) (out : Str) :
    ∃ bytes r' ds ds', All2 (fun x d => delivery cfg x.1 x.2 = some d) its ds ∧ rewriteAll cfg.codec cfg.std compress bufs ds = .ok (some bytes) ∧
      Reader.openFiles { cfg with wanted := [] } false [(out, bytes)] = (.ok (), r') ∧ (∀ gs, gets { cfg with wanted := [] } gs r' = .ok (inTurn gs ds')) ∧
      All2 (CopyIn out) ds ds' := by
  obtain ⟨bytes, r', ds, ds', a1, a2, a3, a4, a5, -⟩ := rewritten_deliveries cfg hcodec hsort hflt its hst compress limit hz hr hcount hruns bufs out
  exact ⟨bytes, r', ds, ds', a1, a2, a3, a4, a5⟩

/-- **C71** (partial). Files, each written in any number of sessions, are merged with `lcio_merge_files`, by a reader that loads all or some of the
collections. Reading the new file, with any sequence of calls of `readNextEvent` and `readNextRunHeader`, gives the same as reading the files: the same run
headers (except for the parameter with the name of the file) and the same events, in the order of the files. There are the restrictions of C67 on the events. -/
theorem C71_merge_partial (cfg : RConfig) (hcodec : Lossless cfg.codec) (hsort : SortLaw cfg.std)
    (hflt : ∀ x, viaFloat cfg.std (viaFloat cfg.std x) = viaFloat cfg.std x) (files : List (Str × List Byte)) (contents : List (Str × List Session))
    (h : FilesHold cfg.codec cfg.std files contents) (hne : files ≠ [])
    (hst : ∀ x ∈ contentsOf contents, ∀ h cols buf, x.2 = .event h cols buf →
      Storable cfg.std cfg.ignoreNull [] cfg.wanted h cols ∧ Copyable (wantedCols cfg.wanted (storedCols [] cols)))
    (compress : Bool) (limit : Nat) (hz : compress = true → CompressesUpTo cfg.codec limit)
    (hr : ∀ x ∈ contentsOf contents, Rewritable limit cfg.std x.1 x.2) (hcount : (contentsOf contents).length < 2 ^ 27)
    (hruns : ∀ x ∈ contentsOf contents, ∀ y ∈ contentsOf contents,
      -2 ^ 31 ≤ x.2.key.run.toInt - y.2.key.run.toInt ∧ x.2.key.run.toInt - y.2.key.run.toInt < 2 ^ 31) (bufs : Nat → Str × Str) (out : Str) :
    ∃ bytes r r' ds ds', mergeFiles cfg compress bufs files = .ok (some bytes, .ok ()) ∧
      Reader.openFiles cfg false files = (.ok (), r) ∧ (∀ gs, gets cfg gs r = .ok (inTurn gs ds)) ∧
      Reader.openFiles { cfg with wanted := [] } false [(out, bytes)] = (.ok (), r') ∧ (∀ gs, gets { cfg with wanted := [] } gs r' = .ok (inTurn gs ds')) ∧
      All2 (CopyIn out) ds ds' := by
  obtain ⟨bytes, r', ds, ds', a1, a2, a3, a4, a5⟩ := rewritten_file cfg hcodec hsort hflt _ hst compress limit hz hr hcount hruns bufs out
  have hl : ∀ c ∈ contents, Loadable cfg (allPuts c.2) := by
    intro c hc p hp file
    have : (c.1, p) ∈ contentsOf contents := by
      unfold contentsOf items
      exact List.mem_flatMap.2 ⟨_, List.mem_map_of_mem hc, List.mem_map.2 ⟨p, hp, rfl⟩⟩
    cases p with
    | run h buf => simp [delivery, Put.loadedRun]
    | event h cols buf =>
      obtain ⟨h', L, T, e1, -⟩ := event_loaded cfg.std cfg.ignoreNull [] cfg.wanted h cols (hst _ this h cols buf rfl).1 buf 0 1 (by omega)
      simp only [delivery, e1]
      simp
  obtain ⟨r, log, r2, c1, c2, c3⟩ := C33_everything_partial cfg hcodec files contents h hne hl 1 (Or.inl (Nat.le_refl 1))
  refine ⟨bytes, r, r', ds, ds', ?_, c1, ?_, a3, a4, a5⟩
  · unfold mergeFiles
    rw [c1]
    simp only []
    rw [c2]
    simp only []
    rw [c3, handed_single cfg _ _ a1, a2]
    rfl
  · intro gs
    obtain ⟨r3, d1, d2, -⟩ := C32_concatenation cfg hcodec files contents h hne hl gs
    rw [c1] at d1
    simp only [Prod.mk.injEq, true_and] at d1
    subst d1
    rw [d2, serve_inTurn cfg gs _ _ a1]

/-! ### Files that were not closed -/

theorem scan_half_stream (cfg : RConfig) (file : Except Err Str) (k : Nat) (x : List Rec) (h : Rest cfg x) (st : StreamState) (p : Nat)
    (hc : (st.count : Int) < intMax) :
    (scan (fun st i => (st, isStreamRecord i)) (streamProcessor cfg file k intMax) st p x).2.2 = none ∧
    (scan (fun st i => (st, isStreamRecord i)) (streamProcessor cfg file k intMax) st p x).1.log = st.log := by
  rcases h with rfl | ⟨r, rfl, hr⟩
  · exact ⟨rfl, rfl⟩
  · obtain ⟨d, hdr, h1, h2⟩ := hr.read
    rw [scan_cons]
    have v1 : isStreamRecord (r.info p) = true := by simp [isStreamRecord, Rec.info, hr.name]
    rw [v1]
    have p1 : streamProcessor cfg file k intMax st (r.info p) r.data = ({ st with hdr := some hdr }, .ok true) := by
      unfold streamProcessor
      rw [if_neg (by show r.name ≠ _; rw [hr.name]; decide), plainData_rec, h1]
      simp only
      rw [if_pos (by exact hr.name), h2, decide_eq_true hc]
    simp only [p1]
    exact ⟨rfl, rfl⟩

/-- `readStream` without a number, of a file that is cut. -/
theorem cut_stream (cfg : RConfig) (k : Nat) (r : Reader) (name : Str) (ps : List Put) (h : Ahead CutStream cfg r name ps)
    (hd : ∀ p ∈ ps, delivery cfg name p ≠ none) (hk : k ≤ 1) (hn : (ps.length : Int) < intMax) :
    ∃ res r', r.readStream cfg k intMax = (handed cfg k (ps.map fun p => (name, p)), res, r') ∧
      (res = .ok () ∨ ∃ e, res = .error e ∧ (e = .noMarker ∨ e = .badState ∨ e = .ioFailure)) := by
  obtain ⟨c, x, h1, h2, h3⟩ := h.stream
  obtain ⟨st, a1, a2, a3⟩ := (scan_stream cfg k intMax name h2 hd (fun p _ => Or.inl hk) {} (by decide) r.stream.pos).1 (by simpa using hn)
  obtain ⟨b1, b2⟩ := scan_half_stream cfg (.ok name) k x h3 st (r.stream.pos + (fileOf c).length) (by rw [a1]; simpa using hn)
  have hsc : scan (fun st i => (st, isStreamRecord i)) (streamProcessor cfg (.ok name) k intMax) {} r.stream.pos (c ++ x) =
      scan (fun st i => (st, isStreamRecord i)) (streamProcessor cfg (.ok name) k intMax) st (r.stream.pos + (fileOf c).length) x := by
    rw [scan_append, a3]
  obtain ⟨e, s', buf', c1, c2⟩ := cut_end isStreamRecord (streamProcessor cfg (.ok name) k intMax) r.stream (c ++ x) h1 {} r.buf (by rw [hsc]; exact b1)
  rw [hsc] at c1
  have hlog : (scan (fun st i => (st, isStreamRecord i)) (streamProcessor cfg (.ok name) k intMax) st (r.stream.pos + (fileOf c).length) x).1.log =
      handed cfg k (ps.map fun p => (name, p)) := by rw [b2, a2]; rfl
  have hl := h.last
  unfold Reader.readStream Reader.readStreamLoop
  rw [h.file, c1]
  rcases c2 with rfl | rfl | rfl | rfl
  · unfold Reader.hasNext at hl
    simp only [Reader.hasNext, hl, Bool.false_eq_true, if_false, if_true, hlog]
    exact ⟨_, _, rfl, Or.inl rfl⟩
  · simp only [hlog]; exact ⟨_, _, rfl, Or.inr ⟨_, rfl, by simp⟩⟩
  · simp only [hlog]; exact ⟨_, _, rfl, Or.inr ⟨_, rfl, by simp⟩⟩
  · simp only [hlog]; exact ⟨_, _, rfl, Or.inr ⟨_, rfl, by simp⟩⟩

/-- **C71** (partial), `copyfix`. As in C65 the machine stops while a session `s` writes to a file after some sessions `ss`, with `n` bytes written, at least as many
as the file had before. Then `copyfix` makes a file with `m` things, those that are complete: at least all the things of the earlier sessions, and all those of this session
for which the call had come to its end with the file written up to there. Reading it gives the same as what was delivered for these things (`ds`). `copyfix` may report
an error, but this is after it has copied them. -/
theorem C71_fix_partial (cfg : RConfig) (hcodec : Lossless cfg.codec) (hsort : SortLaw cfg.std)
    (hflt : ∀ x, viaFloat cfg.std (viaFloat cfg.std x) = viaFloat cfg.std x) (ss : List Session) (s : Session) (hs : SessionsOk cfg.codec cfg.std (ss ++ [s]))
    (hne : s.puts ≠ [])
    (hst : ∀ p ∈ allPuts (ss ++ [s]), ∀ h cols buf, p = .event h cols buf →
      Storable cfg.std cfg.ignoreNull [] cfg.wanted h cols ∧ Copyable (wantedCols cfg.wanted (storedCols [] cols)))
    (compress : Bool) (limit : Nat) (hz : compress = true → CompressesUpTo cfg.codec limit) (name out : Str)
    (hr : ∀ p ∈ allPuts (ss ++ [s]), Rewritable limit cfg.std name p)
    (hruns : ∀ p ∈ allPuts (ss ++ [s]), ∀ q ∈ allPuts (ss ++ [s]),
      -2 ^ 31 ≤ p.key.run.toInt - q.key.run.toInt ∧ p.key.run.toInt - q.key.run.toInt < 2 ^ 31) (bufs : Nat → Str × Str) :
    ∃ w old new, runSessions cfg.codec cfg.std {} none ss = .ok (w, old) ∧ fileAfter cfg.codec cfg.std (ss ++ [s]) = .ok (some new) ∧
      ∀ n, (old.getD []).length ≤ n → ∃ m ≤ (allPuts (ss ++ [s])).length,
        (allPuts ss).length ≤ m ∧
        (∀ i ≤ s.puts.length, ∃ w', s.after cfg.codec cfg.std w old i = .ok w' ∧ (reached w' ≤ n → (allPuts ss).length + i ≤ m)) ∧
        ∃ bytes res r' ds ds', mergeFiles cfg compress bufs [(name, crashed old new n)] = .ok (some bytes, res) ∧
          (res = .ok () ∨ ∃ e, res = .error e ∧ (e = .noMarker ∨ e = .badState ∨ e = .ioFailure)) ∧
          All2 (fun p d => delivery cfg name p = some d) ((allPuts (ss ++ [s])).take m) ds ∧
          Reader.openFiles { cfg with wanted := [] } false [(out, bytes)] = (.ok (), r') ∧ (∀ gs, gets { cfg with wanted := [] } gs r' = .ok (inTurn gs ds')) ∧
          All2 (CopyIn out) ds ds' := by
  have hl : Loadable cfg (allPuts (ss ++ [s])) := by
    intro p hp file
    cases p with
    | run h buf => simp [delivery, Put.loadedRun]
    | event h cols buf =>
      obtain ⟨h', L, T, e1, -⟩ := event_loaded cfg.std cfg.ignoreNull [] cfg.wanted h cols (hst _ hp h cols buf rfl).1 buf 0 1 (by omega)
      simp only [delivery, e1]
      simp
  obtain ⟨w, old, new, h1, h2, h3⟩ := crash_ahead cfg hcodec ss s hs hne hl name
  refine ⟨w, old, new, h1, h2, fun n hn => ?_⟩
  obtain ⟨m, m0, m1, m2, r, o1, ha⟩ := h3 n hn
  refine ⟨m, m0, m1, m2, ?_⟩
  have hcount := hs.count
  have hlen : ((allPuts (ss ++ [s])).take m).length < 2 ^ 27 := by rw [List.length_take]; omega
  have hmem : ∀ x ∈ ((allPuts (ss ++ [s])).take m).map fun p => (name, p), x.1 = name ∧ x.2 ∈ allPuts (ss ++ [s]) := by
    intro x hx
    obtain ⟨p, hp, rfl⟩ := List.mem_map.1 hx
    exact ⟨rfl, List.mem_of_mem_take hp⟩
  obtain ⟨bytes, r', ds, ds', a1, a2, a3, a4, a5⟩ := rewritten_file cfg hcodec hsort hflt (((allPuts (ss ++ [s])).take m).map fun p => (name, p))
    (fun x hx => hst x.2 (hmem x hx).2) compress limit hz (fun x hx => by rw [(hmem x hx).1]; exact hr x.2 (hmem x hx).2) (by rw [List.length_map]; exact hlen)
    (fun x hx y hy => hruns x.2 (hmem x hx).2 y.2 (hmem y hy).2) bufs out
  obtain ⟨res, r2, c1, c2⟩ := cut_stream cfg 1 r name _ ha (fun p hp => hl p (List.mem_of_mem_take hp) name) (Nat.le_refl 1) (by unfold intMax; omega)
  refine ⟨bytes, res, r', ds, ds', ?_, c2, ?_, a3, a4, a5⟩
  · unfold mergeFiles
    rw [o1]
    simp only []
    rw [c1]
    simp only []
    rw [handed_single cfg _ _ a1, a2]
    rfl
  · refine ⟨by rw [← a1.1, List.length_map], fun i p d hp hd => a1.2 i (name, p) d ?_ hd⟩
    rw [List.getElem?_map, hp]
    rfl

/-! ### Cases -/

theorem idCodec_compresses : CompressesUpTo idCodec (2 ^ 31) := fun data h => ⟨data, rfl, by omega⟩

theorem sample_puts (P : Put → Prop) (h1 : ∀ n ∈ [3, 4], ∀ buf, P (.run (runHeaderOf n) buf)) (h2 : ∀ buf, P (.event sampleEventHeader sampleCols buf))
    (h3 : ∀ buf, P (.event { run := 3, evt := 9 } tinyCols buf)) (h4 : ∀ buf, P (.event { run := 4, evt := 0 } [] buf)) :
    ∀ p ∈ allPuts sampleSessions, P p := by
  intro p hp
  simp only [allPuts, sampleSessions, List.flatMap_cons, List.flatMap_nil, List.append_nil, List.nil_append, List.mem_append, List.mem_cons, List.not_mem_nil, or_false] at hp
  rcases hp with (rfl | rfl) | rfl | rfl | rfl
  · exact h1 3 (by simp) _
  · exact h2 _
  · exact h3 _
  · exact h1 4 (by simp) _
  · exact h4 _

/-- The run header of the sample with the name of a file. -/
def namedHeader (f : Str) (n : W32) : RunHeader := { runHeaderOf n with params := { (runHeaderOf n).params with
  readOnly := false, strs := (omAssign strLt (str "LCIOFileName") [f] (runHeaderOf n).params.strs).1 } }

/-- Everything in the sample sessions can be written again. -/
theorem sample_rewritable (f : Str) (hf : f ∈ [str "f", str "h"]) : ∀ p ∈ allPuts sampleSessions, Rewritable (2 ^ 31) ieee f p := by
  refine sample_puts _ ?_ (fun _ => ⟨by decide +kernel, by decide +kernel⟩) (fun _ => ⟨by decide +kernel, by decide +kernel⟩) (fun _ => ⟨by decide +kernel, by decide +kernel⟩)
  intro n hn buf h' he
  have he : namedHeader f n = h' := by
    unfold Put.loadedRun at he
    exact Option.some.inj he
  subst he
  have a : ParamsOk (namedHeader f n).params ∧ Writable runRecordName [(namedHeader f n).block] ∧ dataLen [(namedHeader f n).block] ≤ 2 ^ 31 := by
    simp only [List.mem_cons, List.not_mem_nil, or_false] at hf hn
    rcases hf with rfl | rfl <;> rcases hn with rfl | rfl <;> exact ⟨by decide +kernel, by decide +kernel, by decide +kernel⟩
  have b : (runHeaderOf 3).det.length < 2 ^ 31 ∧ (runHeaderOf 3).descr.length < 2 ^ 31 ∧ (runHeaderOf 3).subdets.length < 2 ^ 31 ∧
    ∀ s ∈ (runHeaderOf 3).subdets, s.length < 2 ^ 31 := by decide +kernel
  exact ⟨⟨b.1, b.2.1, b.2.2.1, b.2.2.2, a.1⟩, a.2⟩

theorem sample_copyable : ∀ p ∈ allPuts sampleSessions, ∀ h cols buf, p = .event h cols buf →
    Storable ieee false [] [] h cols ∧ Copyable (wantedCols [] (storedCols [] cols)) := by
  intro p hp h cols buf he
  refine ⟨sampleSessions_storable h cols buf (by rw [← he]; exact hp), ?_⟩
  revert h cols buf
  revert p
  refine sample_puts _ ?_ ?_ ?_ ?_
  · intro n hn buf h cols buf' he; cases he
  all_goals
    intro buf h cols buf' he
    simp only [Put.event.injEq] at he
    obtain ⟨-, rfl, -⟩ := he
    refine ⟨by decide +kernel, by decide +kernel, by decide +kernel⟩

theorem sample_mergeable : ∀ x ∈ contentsOf [(str "f", sampleSessions), (str "g", [⟨false, []⟩]), (str "h", sampleSessions)],
    x.1 ∈ [str "f", str "h"] ∧ x.2 ∈ allPuts sampleSessions := by
  intro x hx
  unfold contentsOf items at hx
  simp only [List.map_cons, List.map_nil, List.flatMap_cons, List.flatMap_nil, List.append_nil, List.mem_append, List.mem_map] at hx
  rcases hx with ⟨p, hp, rfl⟩ | ⟨p, hp, rfl⟩ | ⟨p, hp, rfl⟩
  · exact ⟨by simp, hp⟩
  · simp [allPuts] at hp
  · exact ⟨by simp, hp⟩

theorem sample_runs : ∀ p ∈ allPuts sampleSessions, ∀ q ∈ allPuts sampleSessions,
    -2 ^ 31 ≤ p.key.run.toInt - q.key.run.toInt ∧ p.key.run.toInt - q.key.run.toInt < 2 ^ 31 := by
  have : ∀ a ∈ (allPuts sampleSessions).map fun p => p.key.run.toInt, ∀ b ∈ (allPuts sampleSessions).map fun p => p.key.run.toInt, -2 ^ 31 ≤ a - b ∧ a - b < 2 ^ 31 := by
    decide +kernel
  exact fun p hp q hq => this _ (List.mem_map_of_mem hp) _ (List.mem_map_of_mem hq)

/-- The hypotheses of the first theorem are met by three files: ten run headers and events are merged, to a file that is compressed. -/
example (bufs : Nat → Str × Str) : ∃ files bytes r r' ds ds', mergeFiles sampleCfg true bufs files = .ok (some bytes, .ok ()) ∧ files.length = 3 ∧
    Reader.openFiles sampleCfg false files = (.ok (), r) ∧ (∀ gs, gets sampleCfg gs r = .ok (inTurn gs ds)) ∧
    Reader.openFiles sampleCfg false [(str "out", bytes)] = (.ok (), r') ∧ (∀ gs, gets sampleCfg gs r' = .ok (inTurn gs ds')) ∧ All2 (CopyIn (str "out")) ds ds' := by
  obtain ⟨bytes0, h⟩ := sampleFiles_hold
  obtain ⟨bytes, r, r', ds, ds', h1, h2, h3, h4, h5, h6⟩ := C71_merge_partial sampleCfg idCodec_lossless ieee_sort viaFloat_twice _ _ h (by simp)
    (fun x hx => sample_copyable x.2 (sample_mergeable x hx).2) true (2 ^ 31) (fun _ => idCodec_compresses)
    (fun x hx => sample_rewritable x.1 (sample_mergeable x hx).1 x.2 (sample_mergeable x hx).2) (by decide)
    (fun x hx y hy => sample_runs x.2 (sample_mergeable x hx).2 y.2 (sample_mergeable y hy).2) bufs (str "out")
  exact ⟨_, bytes, r, r', ds, ds', h1, rfl, h2, h3, h4, h5, h6⟩

/-- The hypotheses of the second theorem are met by the sample sessions. -/
example (bufs : Nat → Str × Str) : ∃ w old new, runSessions sampleCfg.codec sampleCfg.std {} none (sampleSessions.take 2) = .ok (w, old) ∧
    fileAfter sampleCfg.codec sampleCfg.std sampleSessions = .ok (some new) ∧
    ∀ n, (old.getD []).length ≤ n → ∃ m ≤ 5, 2 ≤ m ∧ ∃ bytes res, mergeFiles sampleCfg false bufs [(str "f", crashed old new n)] = .ok (some bytes, res) ∧
      ∃ r' ds', Reader.openFiles sampleCfg false [(str "out", bytes)] = (.ok (), r') ∧ (∀ gs, gets sampleCfg gs r' = .ok (inTurn gs ds')) ∧ ds'.length = m := by
  obtain ⟨w, old, new, h1, h2, h3⟩ := C71_fix_partial sampleCfg idCodec_lossless ieee_sort viaFloat_twice (sampleSessions.take 2)
    (sampleSessions.getLast (by simp [sampleSessions])) sampleSessions_ok (by simp [sampleSessions]) sample_copyable false (2 ^ 31) (by simp) (str "f") (str "out")
    (sample_rewritable (str "f") (by simp)) sample_runs bufs
  refine ⟨w, old, new, h1, h2, fun n hn => ?_⟩
  obtain ⟨m, m1, m2, -, bytes, res, r', ds, ds', c1, -, c2, c3, c4, c5⟩ := h3 n hn
  refine ⟨m, m1, m2, bytes, res, c1, r', ds', c3, c4, ?_⟩
  rw [← c5.1, ← c2.1, List.length_take]
  exact Nat.min_eq_left m1

end Props
