import Verif.Props.SplitMerge
/-
C107: files are merged in stages.
-/
namespace Props
open Sio Spec Lcio Util

theorem all2_append {α β : Type} {R : α → β → Prop} {a : List α} {b : List β} {a' : List α} {b' : List β} (h : All2 R a b) (h' : All2 R a' b') : All2 R (a ++ a') (b ++ b') := by
  induction a generalizing b with
  | nil => obtain rfl := h.nil_inv; exact h'
  | cons x a ih =>
    obtain ⟨y, b, rfl, h1, h2⟩ := h.cons_inv
    exact Lcio.All2.cons h1 (ih h2)

/-- Merging files that hold things: what is in the new file. -/
theorem group_merged (cfg : RConfig) (hcodec : Lossless cfg.codec) (hsort : SortLaw cfg.std)
    (hflt : ∀ x, viaFloat cfg.std (viaFloat cfg.std x) = viaFloat cfg.std x) (files : List (Str × List Byte)) (Q : List (Str × List Put))
    (h : All2 (fun (f : Str × List Byte) (q : Str × List Put) => f.1 = q.1 ∧ FileHolds cfg.codec cfg.std f.2 q.2) files Q) (hne : files ≠ [])
    (hst : ∀ x ∈ items Q, ∀ h cols buf, x.2 = .event h cols buf →
      Storable cfg.std cfg.ignoreNull [] cfg.wanted h cols ∧ Copyable (wantedCols cfg.wanted (storedCols [] cols)))
    (compress : Bool) (limit : Nat) (hz : compress = true → CompressesUpTo cfg.codec limit)
    (hr : ∀ x ∈ items Q, Rewritable limit cfg.std x.1 x.2) (hcount : (items Q).length < 2 ^ 27)
    (hruns : ∀ x ∈ items Q, ∀ y ∈ items Q,
      -2 ^ 31 ≤ x.2.key.run.toInt - y.2.key.run.toInt ∧ x.2.key.run.toInt - y.2.key.run.toInt < 2 ^ 31) (bufs : Nat → Str × Str) :
    ∃ bytes ds, mergeFiles cfg compress bufs files = .ok (some bytes, .ok ()) ∧ All2 (fun x d => delivery cfg x.1 x.2 = some d) (items Q) ds ∧
      FileHolds cfg.codec cfg.std bytes (rewrites bufs 0 ds) ∧ (∀ q ∈ rewrites bufs 0 ds, q.key ∈ (items Q).map (·.2.key)) ∧
      All2 (fun d q => ∀ out, ∃ d', delivery { cfg with wanted := [] } out q = some d' ∧ CopyIn out d d') ds (rewrites bufs 0 ds) := by
  obtain ⟨ds, a1, a2⟩ := rewritten_all cfg hsort hflt compress limit hz [] bufs _ hr hst
  obtain ⟨b1, b2, -⟩ := a2 0
  have hlen : ds.length = (rewrites bufs 0 ds).length := by rw [b2, a1.1]
  let ss : List Session := [⟨compress, rewrites bufs 0 ds⟩]
  have hall : allPuts ss = rewrites bufs 0 ds := by simp [ss, allPuts]
  have hok : SessionsOk cfg.codec cfg.std ss ∨ ∃ c, ss = [⟨c, []⟩] := by
    cases hq : rewrites bufs 0 ds with
    | nil => exact Or.inr ⟨compress, by simp only [ss, hq]⟩
    | cons q qs =>
      refine Or.inl ⟨?_, ⟨_, [], rfl, by rw [hq]; simp⟩, by rw [hall, b2]; exact hcount⟩
      intro s hs
      rw [List.mem_singleton] at hs
      subst hs
      refine ⟨fun p hp => (b1 p hp).1, fun p hp q hq => ?_⟩
      obtain ⟨x, hx, hxp⟩ := List.mem_map.1 (b1 p hp).2
      obtain ⟨y, hy, hyq⟩ := List.mem_map.1 (b1 q hq).2
      rw [← hxp, ← hyq]
      exact hruns x hx y hy
  have hfile : ∃ bytes, fileAfter cfg.codec cfg.std ss = .ok (some bytes) := by
    rcases hok with hok | ⟨c, hok⟩
    · obtain ⟨bytes, e, -⟩ := holds_sessions cfg hcodec ss hok
      exact ⟨bytes, e⟩
    · rw [hok]; exact ⟨[], rfl⟩
  obtain ⟨bytes, hfile⟩ := hfile
  have hwrite : rewriteAll cfg.codec cfg.std compress bufs ds = .ok (some bytes) := by
    unfold rewriteAll
    have := hfile
    unfold fileAfter runSessions Session.run at this
    revert this
    cases ({} : Writer).openNew with
    | error e => intro this; cases this
    | ok w =>
      simp only [bind, Except.bind]
      cases putAll cfg.codec cfg.std compress w (rewrites bufs 0 ds) with
      | error e => intro this; cases this
      | ok w =>
        simp only []
        cases w.close with
        | error e => intro this; cases this
        | ok x =>
          obtain ⟨w, f⟩ := x
          intro this
          simp only [runSessions, Except.ok.injEq] at this
          simp only [this]
          rfl
  have hholds := holds_files cfg hcodec [([], bytes)] [([], ss)] (Lcio.All2.cons ⟨rfl, hfile, hok⟩ (Lcio.All2.nil _))
  obtain ⟨c, cs, hc, ⟨-, hc2⟩, -⟩ := hholds.cons_inv
  simp only [List.map_cons, List.map_nil, List.cons.injEq] at hc
  rw [← hc.1, hall] at hc2
  obtain ⟨r, log, r2, c1, c2, c3⟩ := stream_held cfg files Q h hne (fun x hx => by
    obtain ⟨d, -, hd⟩ := a1.mem_left hx
    rw [hd]; simp) hcount
  refine ⟨bytes, ds, ?_, a1, hc2, fun q hq => (b1 q hq).2, hlen, fun i d q hid hiq out => ?_⟩
  · unfold mergeFiles
    rw [c1]
    simp only []
    rw [c2]
    simp only []
    rw [c3, handed_single cfg _ _ a1, hwrite]
    rfl
  · obtain ⟨ds2, c1, c2⟩ := rewritten_all cfg hsort hflt compress limit hz out bufs _ hr hst
    obtain rfl : ds2 = ds := all2_unique (f := fun x : Str × Put => delivery cfg x.1 x.2) c1 a1
    obtain ⟨-, -, ds', c3, c4⟩ := c2 0
    have hi : i < ds'.length := by rw [← c4.1]; exact (List.getElem?_eq_some_iff.1 hid).1
    exact ⟨ds'[i], c3.2 i q _ hiq (List.getElem?_eq_getElem hi), c4.2 i d _ hid (List.getElem?_eq_getElem hi)⟩

theorem contentsOf_append (a b : List (Str × List Session)) : contentsOf (a ++ b) = contentsOf a ++ contentsOf b := by
  simp [contentsOf, items]

/-- Merging several groups of files. -/
theorem groups_merged (cfg : RConfig) (hcodec : Lossless cfg.codec) (hsort : SortLaw cfg.std)
    (hflt : ∀ x, viaFloat cfg.std (viaFloat cfg.std x) = viaFloat cfg.std x)
    (compress : Bool) (limit : Nat) (hz : compress = true → CompressesUpTo cfg.codec limit) (bufs : Str → Nat → Str × Str)
    (groups : List (Str × List (Str × List Byte))) (contents : List (List (Str × List Session)))
    (h : All2 (fun (g : Str × List (Str × List Byte)) c => FilesHold cfg.codec cfg.std g.2 c) groups contents) (hne : ∀ g ∈ groups, g.2 ≠ [])
    (hst : ∀ x ∈ contentsOf contents.flatten, ∀ h cols buf, x.2 = .event h cols buf →
      Storable cfg.std cfg.ignoreNull [] cfg.wanted h cols ∧ Copyable (wantedCols cfg.wanted (storedCols [] cols)))
    (hr : ∀ x ∈ contentsOf contents.flatten, Rewritable limit cfg.std x.1 x.2) (hcount : (contentsOf contents.flatten).length < 2 ^ 27)
    (hruns : ∀ x ∈ contentsOf contents.flatten, ∀ y ∈ contentsOf contents.flatten,
      -2 ^ 31 ≤ x.2.key.run.toInt - y.2.key.run.toInt ∧ x.2.key.run.toInt - y.2.key.run.toInt < 2 ^ 31) :
    ∃ parts Q ds, All2 (fun (g : Str × List (Str × List Byte)) (f : Str × List Byte) => f.1 = g.1 ∧ mergeFiles cfg compress (bufs g.1) g.2 = .ok (some f.2, .ok ())) groups parts ∧
      All2 (fun (f : Str × List Byte) (q : Str × List Put) => f.1 = q.1 ∧ FileHolds cfg.codec cfg.std f.2 q.2) parts Q ∧
      All2 (fun x d => delivery cfg x.1 x.2 = some d) (contentsOf contents.flatten) ds ∧
      All2 (fun d q => ∀ out, ∃ d', delivery { cfg with wanted := [] } out q = some d' ∧ CopyIn out d d') ds (Q.flatMap (·.2)) ∧
      (∀ x ∈ items Q, (∃ g ∈ groups, x.1 = g.1) ∧ x.2.key ∈ (contentsOf contents.flatten).map (·.2.key) ∧ ∃ b, ∃ d ∈ ds, x.2 = rewrite b d) := by
  induction groups generalizing contents with
  | nil =>
    obtain rfl := h.nil_inv
    exact ⟨[], [], [], Lcio.All2.nil _, Lcio.All2.nil _, Lcio.All2.nil _, Lcio.All2.nil _, by simp [items]⟩
  | cons g groups ih =>
    obtain ⟨c, contents, rfl, h1, h2⟩ := h.cons_inv
    rw [List.flatten_cons, contentsOf_append] at hst hr hcount hruns
    obtain ⟨bytes, ds1, a1, a2, a3, a4, a5⟩ := group_merged cfg hcodec hsort hflt g.2 _ (holds_files cfg hcodec g.2 c h1) (hne g (by simp))
      (fun x hx => hst x (List.mem_append_left _ hx)) compress limit hz (fun x hx => hr x (List.mem_append_left _ hx))
      (by rw [List.length_append] at hcount; unfold contentsOf at hcount; omega) (fun x hx y hy => hruns x (List.mem_append_left _ hx) y (List.mem_append_left _ hy)) (bufs g.1)
    obtain ⟨parts, Q, ds, b1, b2, b3, b4, b5⟩ := ih contents h2 (fun g hg => hne g (by simp [hg])) (fun x hx => hst x (List.mem_append_right _ hx))
      (fun x hx => hr x (List.mem_append_right _ hx)) (by rw [List.length_append] at hcount; omega) (fun x hx y hy => hruns x (List.mem_append_right _ hx) y (List.mem_append_right _ hy))
    refine ⟨(g.1, bytes) :: parts, (g.1, rewrites (bufs g.1) 0 ds1) :: Q, ds1 ++ ds, Lcio.All2.cons ⟨rfl, a1⟩ b1, Lcio.All2.cons ⟨rfl, a3⟩ b2, ?_, ?_, ?_⟩
    · rw [List.flatten_cons, contentsOf_append]
      exact all2_append a2 b3
    · rw [List.flatMap_cons]
      exact all2_append a5 b4
    · intro x hx
      rw [List.flatten_cons, contentsOf_append, List.map_append]
      unfold items at hx
      rw [List.flatMap_cons] at hx
      rcases List.mem_append.1 hx with hx | hx
      · obtain ⟨q, hq, rfl⟩ := List.mem_map.1 hx
        obtain ⟨j, d, hd, e⟩ := rewrites_mem hq
        exact ⟨⟨g, by simp, rfl⟩, List.mem_append_left _ (a4 q hq), _, d, List.mem_append_left _ hd, e⟩
      · obtain ⟨⟨g', hg', e1⟩, e2, b, d, hd, e3⟩ := b5 x hx
        exact ⟨⟨g', by simp [hg'], e1⟩, List.mem_append_right _ e2, b, d, List.mem_append_right _ hd, e3⟩

theorem filesHold_append {codec : Codec} {std : Std Pid} (groups : List (Str × List (Str × List Byte))) (contents : List (List (Str × List Session)))
    (h : All2 (fun (g : Str × List (Str × List Byte)) c => FilesHold codec std g.2 c) groups contents) : FilesHold codec std (groups.flatMap (·.2)) contents.flatten := by
  induction groups generalizing contents with
  | nil => obtain rfl := h.nil_inv; exact Lcio.All2.nil _
  | cons g groups ih =>
    obtain ⟨c, contents, rfl, h1, h2⟩ := h.cons_inv
    rw [List.flatMap_cons, List.flatten_cons]
    exact all2_append h1 (ih contents h2)

/-- **C107** (partial). Files are merged with `lcio_merge_files` in stages: first the files of each group, to a file with the name of the group, and then the files of the groups.
Reading the new file, with any sequence of calls, gives the same as reading all the files, in the order of the groups, and so does reading the file that one gets by merging all the files at
once. There are the restrictions of C71, and the run headers must be writable with the names of the groups in their parameters. -/
theorem C107_stages_partial (cfg : RConfig) (hcodec : Lossless cfg.codec) (hsort : SortLaw cfg.std)
    (hflt : ∀ x, viaFloat cfg.std (viaFloat cfg.std x) = viaFloat cfg.std x)
    (groups : List (Str × List (Str × List Byte))) (contents : List (List (Str × List Session)))
    (h : All2 (fun (g : Str × List (Str × List Byte)) c => FilesHold cfg.codec cfg.std g.2 c) groups contents) (hne : groups ≠ []) (hne' : ∀ g ∈ groups, g.2 ≠ [])
    (hst : ∀ x ∈ contentsOf contents.flatten, ∀ h cols buf, x.2 = .event h cols buf →
      Storable cfg.std cfg.ignoreNull [] cfg.wanted h cols ∧ Copyable (wantedCols cfg.wanted (storedCols [] cols)))
    (compress : Bool) (limit : Nat) (hz : compress = true → CompressesUpTo cfg.codec limit)
    (hr : ∀ x ∈ contentsOf contents.flatten, Rewritable limit cfg.std x.1 x.2) (hcount : (contentsOf contents.flatten).length < 2 ^ 27)
    (hruns : ∀ x ∈ contentsOf contents.flatten, ∀ y ∈ contentsOf contents.flatten,
      -2 ^ 31 ≤ x.2.key.run.toInt - y.2.key.run.toInt ∧ x.2.key.run.toInt - y.2.key.run.toInt < 2 ^ 31)
    (hnames : ∀ g ∈ groups, ∀ x ∈ contentsOf contents.flatten, ∀ h, x.2.loadedRun x.1 = some h → Rewritable limit cfg.std g.1 (.run h []))
    (bufs : Str → Nat → Str × Str) (bufs2 bufs3 : Nat → Str × Str) (out out3 : Str) :
    ∃ parts staged once r ds r2 ds2 r3 ds3,
      All2 (fun (g : Str × List (Str × List Byte)) (f : Str × List Byte) => f.1 = g.1 ∧ mergeFiles cfg compress (bufs g.1) g.2 = .ok (some f.2, .ok ())) groups parts ∧
      mergeFiles { cfg with wanted := [] } compress bufs2 parts = .ok (some staged, .ok ()) ∧
      mergeFiles cfg compress bufs3 (groups.flatMap (·.2)) = .ok (some once, .ok ()) ∧
      Reader.openFiles cfg false (groups.flatMap (·.2)) = (.ok (), r) ∧ (∀ gs, gets cfg gs r = .ok (inTurn gs ds)) ∧
      Reader.openFiles { cfg with wanted := [] } false [(out, staged)] = (.ok (), r2) ∧ (∀ gs, gets { cfg with wanted := [] } gs r2 = .ok (inTurn gs ds2)) ∧
      Reader.openFiles { cfg with wanted := [] } false [(out3, once)] = (.ok (), r3) ∧ (∀ gs, gets { cfg with wanted := [] } gs r3 = .ok (inTurn gs ds3)) ∧
      All2 (CopyIn out) ds ds2 ∧ All2 (CopyIn out3) ds ds3 := by
  let cfg' : RConfig := { cfg with wanted := [] }
  have hflat := filesHold_append groups contents h
  have hfne : groups.flatMap (·.2) ≠ [] := by
    cases groups with
    | nil => exact absurd rfl hne
    | cons g groups =>
      rw [List.flatMap_cons]
      have := hne' g (by simp)
      simp [this]
  obtain ⟨once, r3, ds, ds3, o1, o3, o4, o5, o6⟩ := merge_held cfg hcodec hsort hflt _ _ (holds_files cfg hcodec _ _ hflat) hfne hst compress limit hz hr hcount hruns bufs3 out3
  have hl : ∀ c ∈ contents.flatten, Loadable cfg (allPuts c.2) := by
    intro c hc p hp file
    have : (c.1, p) ∈ contentsOf contents.flatten := by
      unfold contentsOf items
      exact List.mem_flatMap.2 ⟨_, List.mem_map_of_mem hc, List.mem_map.2 ⟨p, hp, rfl⟩⟩
    cases p with
    | run h buf => simp [delivery, Put.loadedRun]
    | event h cols buf =>
      obtain ⟨h', L, T, e1, -⟩ := event_loaded cfg.std cfg.ignoreNull [] cfg.wanted h cols (hst _ this h cols buf rfl).1 buf 0 1 (by omega)
      simp only [delivery, e1]
      simp
  obtain ⟨r, o2, -⟩ := C32_concatenation cfg hcodec _ _ hflat hfne hl []
  obtain ⟨parts, Q, ds0, a1, a2, a3, a4, a5⟩ := groups_merged cfg hcodec hsort hflt compress limit hz bufs groups contents h hne' hst hr hcount hruns
  have hpne : parts ≠ [] := by
    intro e
    rw [e] at a1
    exact hne (List.length_eq_zero_iff.1 a1.1)
  have hgood : ∀ x ∈ items Q, (∀ h cols buf, x.2 = .event h cols buf → Storable cfg.std cfg.ignoreNull [] [] h cols ∧ Copyable (wantedCols [] (storedCols [] cols))) ∧
        Rewritable limit cfg.std x.1 x.2 := by
    intro x hx
    obtain ⟨⟨g, hg, e1⟩, -, b, d, hd, e3⟩ := a5 x hx
    obtain ⟨y, hy, hyd⟩ := a3.mem_right hd
    rw [e3, e1]
    exact rewritten_good cfg hsort hflt limit y.1 y.2 (hr y hy) (hst y hy) d hyd b g.1 (fun h hh => hnames g hg y hy h hh)
  have hkey : ∀ x ∈ items Q, ∃ y ∈ contentsOf contents.flatten, y.2.key = x.2.key := fun x hx => by
    obtain ⟨-, e, -⟩ := a5 x hx
    obtain ⟨y, hy, e⟩ := List.mem_map.1 e
    exact ⟨y, hy, e⟩
  obtain ⟨merged, r', ds1, ds', m1, m2, m3, m4, m5⟩ := merge_held cfg' hcodec hsort hflt parts Q a2 hpne (fun x hx => (hgood x hx).1) compress limit hz
    (fun x hx => (hgood x hx).2) (by rw [items_length, ← a4.1, ← a3.1]; exact hcount)
    (fun x hx y hy => by
      obtain ⟨x', hx', ex⟩ := hkey x hx
      obtain ⟨y', hy', ey⟩ := hkey y hy
      rw [← ex, ← ey]
      exact hruns x' hx' y' hy') bufs2 out
  obtain ⟨ps, p1, p2⟩ := parts_of cfg' Q ds0 a4
  have hds1 : ps.flatMap (·.2) = ds1 := all2_unique (f := fun x : Str × Put => delivery cfg' x.1 x.2) (items_all2 cfg' _ ps p1) m2
  have hds : ds0 = ds := all2_unique (f := fun x : Str × Put => delivery cfg x.1 x.2) a3 o3
  subst hds
  refine ⟨parts, merged, once, r, ds0, r', ds', r3, ds3, a1, m1, o1, o2, ?_, m3, m4, o4, o5, ?_, o6⟩
  · intro gs
    obtain ⟨r3, d1, d2, -⟩ := C32_concatenation cfg hcodec _ _ hflat hfne hl gs
    rw [o2] at d1
    simp only [Prod.mk.injEq, true_and] at d1
    subst d1
    rw [d2, serve_inTurn cfg gs _ _ a3]
  have hlab : (labelled ps).map (·.2) = ds1 := by
    rw [← hds1]
    unfold labelled
    rw [List.map_flatMap]
    congr 1
    funext p
    rw [List.map_map]
    exact List.map_id _
  rw [← hlab] at m5
  have m6 := All2.mapLeft (fun x : Str × Delivery => x.2) m5
  refine ⟨p2.1.trans m6.1, fun i d d' hd hd' => ?_⟩
  have hlt : i < (labelled ps).length := by rw [← p2.1]; exact (List.getElem?_eq_some_iff.1 hd).1
  exact copyIn_trans (p2.2 i d _ hd (List.getElem?_eq_getElem hlt)) (m6.2 i _ d' (List.getElem?_eq_getElem hlt) hd')

/-! ## A case -/

theorem staged_ok : ∀ f ∈ [str "f", str "h"], ∀ g ∈ [str "first", str "second"], ∀ n ∈ [(3 : W32), 4],
    ParamsOk (renamedHeader f g n).params ∧ Writable runRecordName [(renamedHeader f g n).block] ∧ dataLen [(renamedHeader f g n).block] ≤ 2 ^ 31 := by
  intro f hf g hg n hn
  simp only [List.mem_cons, List.not_mem_nil, or_false] at hf hg hn
  rcases hf with rfl | rfl <;> rcases hg with rfl | rfl <;> rcases hn with rfl | rfl <;> exact ⟨by decide +kernel, by decide +kernel, by decide +kernel⟩

/-- The run headers in the sample can be written with the names of the groups. -/
theorem sample_staged : ∀ f ∈ [str "f", str "h"], ∀ g ∈ [str "first", str "second"], ∀ p ∈ allPuts sampleSessions, ∀ h, p.loadedRun f = some h →
    Rewritable (2 ^ 31) ieee g (.run h []) := by
  intro f hf g hg
  refine sample_puts _ ?_ (fun _ h he => by cases he) (fun _ h he => by cases he) (fun _ h he => by cases he)
  intro n hn buf h he h' he'
  have he : namedHeader f n = h := Option.some.inj he
  subst he
  have he' : renamedHeader f g n = h' := Option.some.inj he'
  subst he'
  have a := staged_ok f hf g hg n (by simpa using hn)
  have b : (runHeaderOf 3).det.length < 2 ^ 31 ∧ (runHeaderOf 3).descr.length < 2 ^ 31 ∧ (runHeaderOf 3).subdets.length < 2 ^ 31 ∧
    ∀ s ∈ (runHeaderOf 3).subdets, s.length < 2 ^ 31 := by decide +kernel
  exact ⟨⟨b.1, b.2.1, b.2.2.1, b.2.2.2, a.1⟩, a.2⟩

/-- Three files in two groups: the hypotheses are met. -/
example (bufs : Str → Nat → Str × Str) (bufs2 bufs3 : Nat → Str × Str) : ∃ bytes part1 part2 staged once r ds r2 ds2 r3 ds3,
    mergeFiles sampleCfg true (bufs (str "first")) [(str "f", bytes), (str "g", [])] = .ok (some part1, .ok ()) ∧
    mergeFiles sampleCfg true (bufs (str "second")) [(str "h", bytes)] = .ok (some part2, .ok ()) ∧
    mergeFiles sampleCfg true bufs2 [(str "first", part1), (str "second", part2)] = .ok (some staged, .ok ()) ∧
    mergeFiles sampleCfg true bufs3 [(str "f", bytes), (str "g", []), (str "h", bytes)] = .ok (some once, .ok ()) ∧
    Reader.openFiles sampleCfg false [(str "f", bytes), (str "g", []), (str "h", bytes)] = (.ok (), r) ∧ (∀ gs, gets sampleCfg gs r = .ok (inTurn gs ds)) ∧
    Reader.openFiles sampleCfg false [(str "out", staged)] = (.ok (), r2) ∧ (∀ gs, gets sampleCfg gs r2 = .ok (inTurn gs ds2)) ∧
    Reader.openFiles sampleCfg false [(str "out", once)] = (.ok (), r3) ∧ (∀ gs, gets sampleCfg gs r3 = .ok (inTurn gs ds3)) ∧
    All2 (CopyIn (str "out")) ds ds2 ∧ All2 (CopyIn (str "out")) ds ds3 := by
  obtain ⟨bytes, h1⟩ := sampleFiles_hold
  obtain ⟨c1, cs1, e1, g1, h2⟩ := h1.cons_inv
  obtain ⟨c2, cs2, e2, g2, h3⟩ := h2.cons_inv
  have e1 := List.cons.inj e1
  have e2' := List.cons.inj (e1.2.trans e2)
  rw [← e1.1] at g1
  rw [← e2'.1] at g2
  rw [← e2'.2] at h3
  have hh : All2 (fun (g : Str × List (Str × List Byte)) c => FilesHold sampleCfg.codec sampleCfg.std g.2 c)
      [(str "first", [(str "f", bytes), (str "g", [])]), (str "second", [(str "h", bytes)])]
      [[(str "f", sampleSessions), (str "g", [⟨false, []⟩])], [(str "h", sampleSessions)]] :=
    Lcio.All2.cons (Lcio.All2.cons g1 (Lcio.All2.cons g2 (Lcio.All2.nil _))) (Lcio.All2.cons h3 (Lcio.All2.nil _))
  obtain ⟨parts, staged, once, r, ds, r2, ds2, r3, ds3, a1, a2⟩ := C107_stages_partial sampleCfg idCodec_lossless ieee_sort viaFloat_twice _ _ hh (by simp) (by simp)
    (fun x hx => sample_copyable x.2 (sample_mergeable x hx).2) true (2 ^ 31) (fun _ => idCodec_compresses)
    (fun x hx => sample_rewritable x.1 (sample_mergeable x hx).1 x.2 (sample_mergeable x hx).2) (by decide)
    (fun x hx y hy => sample_runs x.2 (sample_mergeable x hx).2 y.2 (sample_mergeable y hy).2)
    (fun g hg x hx => sample_staged x.1 (sample_mergeable x hx).1 g.1 (by
      simp only [List.mem_cons, List.not_mem_nil, or_false] at hg
      rcases hg with rfl | rfl <;> simp) x.2 (sample_mergeable x hx).2) bufs bufs2 bufs3 (str "out") (str "out")
  obtain ⟨⟨n1, b1⟩, parts, rfl, ⟨rfl, a3⟩, a4⟩ := a1.cons_inv
  obtain ⟨⟨n2, b2⟩, parts, rfl, ⟨rfl, a5⟩, a6⟩ := a4.cons_inv
  obtain rfl := a6.nil_inv
  exact ⟨bytes, b1, b2, staged, once, r, ds, r2, ds2, r3, ds3, a3, a5, a2⟩

end Props
