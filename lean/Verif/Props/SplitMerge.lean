import Verif.Props.Generations
import Verif.Props.SplitFile
/-
C107: copies of copies in files: a file is split, and the parts are merged.
-/
namespace Props
open Sio Spec Lcio Util

theorem copyIn_trans {a b : Str} {d d1 d2 : Delivery} (h : CopyIn a d d1) (h' : CopyIn b d1 d2) : CopyIn b d d2 := by
  cases d <;> cases d1 <;> cases d2 <;> simp only [CopyIn] at h h' ⊢
  · rw [h', h, omAssign_over strWeak]
  · exact h.trans h'

/-- What was written of something that was read can be written again. -/
theorem rewritten_good (cfg : RConfig) (hsort : SortLaw cfg.std) (hflt : ∀ x, viaFloat cfg.std (viaFloat cfg.std x) = viaFloat cfg.std x)
    (limit : Nat) (file : Str) (p : Put) (hr : Rewritable limit cfg.std file p)
    (hst : ∀ h cols buf, p = .event h cols buf → Storable cfg.std cfg.ignoreNull [] cfg.wanted h cols ∧ Copyable (wantedCols cfg.wanted (storedCols [] cols)))
    (d : Delivery) (hd : delivery cfg file p = some d) (b : Str × Str) (name : Str)
    (hn : ∀ h, p.loadedRun file = some h → Rewritable limit cfg.std name (.run h [])) :
    (∀ h cols buf, rewrite b d = .event h cols buf → Storable cfg.std cfg.ignoreNull [] [] h cols ∧ Copyable (wantedCols [] (storedCols [] cols))) ∧
      Rewritable limit cfg.std name (rewrite b d) := by
  cases p with
  | run h buf0 =>
    simp only [delivery, Put.loadedRun, Option.map_some, Option.some.injEq] at hd
    subst hd
    exact ⟨fun _ _ _ e => by simp [rewrite] at e, hn _ rfl⟩
  | event h cols buf0 =>
    obtain ⟨h1, h2⟩ := hst h cols buf0 rfl
    obtain ⟨hh, cols1, a1, a2, a3, a4, a5, a6, a7⟩ := copied cfg.std hsort hflt cfg.ignoreNull [] cfg.wanted h cols h1 h2 buf0 0 1 (by omega)
    obtain ⟨hh', cols1', b1, b2, b3⟩ := copied_again cfg.std hsort hflt cfg.ignoreNull [] cfg.wanted h cols h1 h2 buf0 0 1 (by omega)
    rw [a1] at b1
    simp only [Except.ok.injEq, Prod.mk.injEq] at b1
    obtain ⟨rfl, rfl⟩ := b1
    simp only [delivery, a1, Option.some.injEq] at hd
    subst hd
    refine ⟨fun h cols buf e => ?_, ?_⟩
    · simp only [rewrite, Put.event.injEq] at e
      obtain ⟨rfl, rfl, -⟩ := e
      exact ⟨b2, b3⟩
    · exact ⟨Nat.le_trans a5 hr.1, Nat.le_trans a6 hr.2⟩

/-- Reading files that hold things. -/
theorem stream_held (cfg : RConfig) (files : List (Str × List Byte)) (Q : List (Str × List Put)) (h : All2 (fun (f : Str × List Byte) (q : Str × List Put) => f.1 = q.1 ∧ FileHolds cfg.codec cfg.std f.2 q.2) files Q)
    (hne : files ≠ []) (hd : ∀ x ∈ items Q, delivery cfg x.1 x.2 ≠ none) (hlen : (items Q).length < 2 ^ 27) :
    ∃ r log r', Reader.openFiles cfg false files = (.ok (), r) ∧ r.readStream cfg 1 intMax = (log, .ok (), r') ∧ log = handed cfg 1 (items Q) := by
  cases files with
  | nil => exact absurd rfl hne
  | cons f files =>
    obtain ⟨c, cs, rfl, -, -⟩ := h.cons_inv
    obtain ⟨r, h1, h2⟩ := openFiles_at cfg f files c cs h
    have hfol : following c.1 c.2 cs = items (c :: cs) := rfl
    have hle : ∀ q ∈ c :: cs, (q.2.length : Int) < intMax := by
      intro q hq
      have : q.2.length ≤ (items (c :: cs)).length := by
        unfold items
        obtain ⟨a, b, hab⟩ := List.append_of_mem hq
        rw [hab]
        simp only [List.flatMap_append, List.flatMap_cons, List.length_append, List.length_map]
        omega
      unfold intMax; omega
    obtain ⟨a1, a2⟩ := stream_all cfg 1 (r.files.length + 1) r _ _ _ h2 h2.rest_length (by rw [hfol]; exact hd) (fun x _ => Or.inl (Nat.le_refl 1))
      (hle c List.mem_cons_self) (fun q hq => hle q (List.mem_cons_of_mem _ hq))
    rw [hfol] at a1
    refine ⟨r, (r.readStream cfg 1 intMax).1, (r.readStream cfg 1 intMax).2.2, h1, ?_, a1⟩
    have a3 : (r.readStream cfg 1 intMax).2.1 = .ok () := a2
    rw [← a3]

/-- Merging files that hold things. -/
theorem merge_held (cfg : RConfig) (hcodec : Lossless cfg.codec) (hsort : SortLaw cfg.std)
    (hflt : ∀ x, viaFloat cfg.std (viaFloat cfg.std x) = viaFloat cfg.std x) (files : List (Str × List Byte)) (Q : List (Str × List Put))
    (h : All2 (fun (f : Str × List Byte) (q : Str × List Put) => f.1 = q.1 ∧ FileHolds cfg.codec cfg.std f.2 q.2) files Q) (hne : files ≠ [])
    (hst : ∀ x ∈ items Q, ∀ h cols buf, x.2 = .event h cols buf →
      Storable cfg.std cfg.ignoreNull [] cfg.wanted h cols ∧ Copyable (wantedCols cfg.wanted (storedCols [] cols)))
    (compress : Bool) (limit : Nat) (hz : compress = true → CompressesUpTo cfg.codec limit)
    (hr : ∀ x ∈ items Q, Rewritable limit cfg.std x.1 x.2) (hcount : (items Q).length < 2 ^ 27)
    (hruns : ∀ x ∈ items Q, ∀ y ∈ items Q,
      -2 ^ 31 ≤ x.2.key.run.toInt - y.2.key.run.toInt ∧ x.2.key.run.toInt - y.2.key.run.toInt < 2 ^ 31) (bufs : Nat → Str × Str) (out : Str) :
    ∃ bytes r' ds ds', mergeFiles cfg compress bufs files = .ok (some bytes, .ok ()) ∧ All2 (fun x d => delivery cfg x.1 x.2 = some d) (items Q) ds ∧
      Reader.openFiles { cfg with wanted := [] } false [(out, bytes)] = (.ok (), r') ∧ (∀ gs, gets { cfg with wanted := [] } gs r' = .ok (inTurn gs ds')) ∧
      All2 (CopyIn out) ds ds' := by
  obtain ⟨bytes, r', ds, ds', a1, a2, a3, a4, a5⟩ := rewritten_file cfg hcodec hsort hflt _ hst compress limit hz hr hcount hruns bufs out
  obtain ⟨r, log, r2, c1, c2, c3⟩ := stream_held cfg files Q h hne (fun x hx => by
    obtain ⟨d, -, hd⟩ := a1.mem_left hx
    rw [hd]; simp) hcount
  refine ⟨bytes, r', ds, ds', ?_, a1, a3, a4, a5⟩
  unfold mergeFiles
  rw [c1]
  simp only []
  rw [c2]
  simp only []
  rw [c3, handed_single cfg _ _ a1, a2]
  rfl

/-- What is in the files that a split writer makes. -/
theorem split_held {codec : Codec} {std : Std Pid} (hcodec : Lossless codec) (compress : Bool) (limit : Int) (base : Str) (hb : base ≠ []) (hbl : base.length < 2 ^ 32 - 2)
    (disk : List (Str × List Byte)) (hd : ∀ f ∈ disk, ∀ n, ¬ IsPart base n f.1) (ps : List Put) (hps : Session.Ok codec std ⟨compress, ps⟩)
    (hn : ps.length < 2 ^ 27) :
    ∃ s files, splitSession codec std compress { maxBytes := limit, disk := disk } (base ++ str ".slcio") ps = .ok s ∧ s.disk = disk ++ files ∧ files ≠ [] ∧
      All2 (fun (f : Str × List Byte) c => FileHolds codec std f.2 c) files (distribute (bytesWith codec std compress) limit [] ps) ∧
      ∀ (i : Nat) f, files[i]? = some f → IsPart base i f.1 := by
  obtain ⟨s0, h1, h2⟩ := open_first (codec := codec) (std := std) (compress := compress) limit base hb hbl disk
    (fun f hf he => hd f hf 0 (by rw [he]; exact partName_part base 0))
  obtain ⟨s1, s2, files, r1, r2, r3, r4, r5, r6, r7, r8, r9⟩ := split_loop hcodec ps hps.puts disk 0 [] s0 h2 (runsClose_of _ hps.runs) hn (by omega)
    (fun f hf j _ he => hd f hf j (by rw [he]; exact partName_part base j))
  refine ⟨s2, files, ?_, r3, r9, r5, fun i f hf => ?_⟩
  · unfold splitSession
    rw [h1]
    simp only
    rw [r1]
    simp only
    rw [r2]
  · have e : (files.map (·.1))[i]? = some f.1 := by rw [List.getElem?_map, hf]; rfl
    rw [r4, List.getElem?_map, List.getElem?_range' (List.getElem?_eq_some_iff.1 hf).1] at e
    have : f.1 = partName base i := by simpa using e.symm
    rw [this]
    exact partName_part base i

theorem zip_held {codec : Codec} {std : Std Pid} : ∀ (files : List (Str × List Byte)) (chunks : List (List Put)), All2 (fun (f : Str × List Byte) c => FileHolds codec std f.2 c) files chunks →
    All2 (fun (f : Str × List Byte) (q : Str × List Put) => f.1 = q.1 ∧ FileHolds codec std f.2 q.2) files ((files.map (·.1)).zip chunks) := by
  intro files
  induction files with
  | nil => intro chunks _; exact Lcio.All2.nil _
  | cons f files ih =>
    intro chunks h
    obtain ⟨c, cs, rfl, h1, h2⟩ := h.cons_inv
    exact Lcio.All2.cons ⟨rfl, h1⟩ (ih cs h2)

theorem mem_zip_items {names : List Str} {chunks : List (List Put)} {x : Str × Put} (h : x ∈ items (names.zip chunks)) : x.1 ∈ names ∧ x.2 ∈ chunks.flatten := by
  unfold items at h
  obtain ⟨q, hq, hx⟩ := List.mem_flatMap.1 h
  obtain ⟨p, hp, rfl⟩ := List.mem_map.1 hx
  have := List.of_mem_zip (a := q.1) (b := q.2) hq
  exact ⟨this.1, List.mem_flatten.2 ⟨q.2, this.2, hp⟩⟩

theorem items_length (Q : List (Str × List Put)) : (items Q).length = (Q.flatMap (·.2)).length := by
  unfold items
  induction Q with
  | nil => rfl
  | cons q Q ih => rw [List.flatMap_cons, List.flatMap_cons, List.length_append, List.length_append, ih, List.length_map]

theorem rewrites_mem {bufs : Nat → Str × Str} {ds : List Delivery} {q : Put} : ∀ {i : Nat}, q ∈ rewrites bufs i ds → ∃ j, ∃ d ∈ ds, q = rewrite (bufs j) d := by
  induction ds with
  | nil => intro i h; cases h
  | cons d ds ih =>
    intro i h
    rcases List.mem_cons.1 h with rfl | h
    · exact ⟨i, d, List.mem_cons_self, rfl⟩
    · obtain ⟨j, d', h1, h2⟩ := ih h
      exact ⟨j, d', List.mem_cons_of_mem _ h1, h2⟩

theorem distribute_length (size : List Put → Nat) (limit : Int) (cur ps : List Put) : (distribute size limit cur ps).length ≤ ps.length + 1 := by
  induction ps generalizing cur with
  | nil => simp [distribute]
  | cons p ps ih =>
    unfold distribute
    split
    · rw [List.length_cons, List.length_cons]
      have := ih [p]
      omega
    · have := ih (cur ++ [p])
      rw [List.length_cons]
      omega

/-- **C107** (partial). A file, written in any number of sessions, is split with `lcio_split_file`, for any size of the parts, and the parts are merged with `lcio_merge_files`. Reading the
new file, with any sequence of calls of `readNextEvent` and `readNextRunHeader`, gives the same as reading the file: the same run headers (except for the parameter with the name of
the file) and the same events, in the same order, nothing twice and nothing left out. There are the restrictions of C71 and C89, and the run headers must be writable with
the names of the parts in their parameters. -/
theorem C107_partial (cfg : RConfig) (hcodec : Lossless cfg.codec) (hsort : SortLaw cfg.std)
    (hflt : ∀ x, viaFloat cfg.std (viaFloat cfg.std x) = viaFloat cfg.std x) (inName : Str) (bytes : List Byte) (ss : List Session)
    (h : FilesHold cfg.codec cfg.std [(inName, bytes)] [(inName, ss)])
    (hst : ∀ p ∈ allPuts ss, ∀ h cols buf, p = .event h cols buf → Storable cfg.std cfg.ignoreNull [] cfg.wanted h cols ∧ Copyable (wantedCols cfg.wanted (storedCols [] cols)))
    (compress : Bool) (limit : Nat) (hz : compress = true → CompressesUpTo cfg.codec limit) (hr : ∀ p ∈ allPuts ss, Rewritable limit cfg.std inName p)
    (hcount : (allPuts ss).length < 2 ^ 27)
    (hruns : ∀ p ∈ allPuts ss, ∀ q ∈ allPuts ss, -2 ^ 31 ≤ p.key.run.toInt - q.key.run.toInt ∧ p.key.run.toInt - q.key.run.toInt < 2 ^ 31)
    (bufs : Nat → Str × Str) (disk : List (Str × List Byte)) (hdisk : disk.lookup inName = some bytes) (base : Str) (hb : base ≠ []) (hbl : base.length < 2 ^ 32 - 2)
    (hd : ∀ f ∈ disk, ∀ n, ¬ IsPart base n f.1) (splitSize : Int)
    (hnames : ∀ n name, n ≤ (allPuts ss).length → IsPart base n name → ∀ p ∈ allPuts ss, ∀ h, p.loadedRun inName = some h → Rewritable limit cfg.std name (.run h []))
    (bufs2 : Nat → Str × Str) (out : Str) :
    ∃ files n merged r ds r' ds', splitFile cfg compress bufs disk inName (base ++ str ".slcio") splitSize = .ok (disk ++ files, n, .ok ()) ∧
      mergeFiles { cfg with wanted := [] } compress bufs2 files = .ok (some merged, .ok ()) ∧
      Reader.openFiles cfg false [(inName, bytes)] = (.ok (), r) ∧ (∀ gs, gets cfg gs r = .ok (inTurn gs ds)) ∧
      Reader.openFiles { cfg with wanted := [] } false [(out, merged)] = (.ok (), r') ∧ (∀ gs, gets { cfg with wanted := [] } gs r' = .ok (inTurn gs ds')) ∧
      All2 (CopyIn out) ds ds' := by
  have hits : contentsOf [(inName, ss)] = (allPuts ss).map fun p => (inName, p) := by simp [contentsOf, items]
  have hmem : ∀ x ∈ contentsOf [(inName, ss)], x.1 = inName ∧ x.2 ∈ allPuts ss := by
    intro x hx
    rw [hits] at hx
    obtain ⟨p, hp, rfl⟩ := List.mem_map.1 hx
    exact ⟨rfl, hp⟩
  have hr' : ∀ x ∈ contentsOf [(inName, ss)], Rewritable limit cfg.std x.1 x.2 := fun x hx => by rw [(hmem x hx).1]; exact hr _ (hmem x hx).2
  have hst' : ∀ x ∈ contentsOf [(inName, ss)], ∀ h cols buf, x.2 = .event h cols buf →
      Storable cfg.std cfg.ignoreNull [] cfg.wanted h cols ∧ Copyable (wantedCols cfg.wanted (storedCols [] cols)) := fun x hx => hst _ (hmem x hx).2
  obtain ⟨ds, a1, a2⟩ := rewritten_all cfg hsort hflt compress limit hz [] bufs _ hr' hst'
  obtain ⟨b1, b2, -⟩ := a2 0
  have hlen : ds.length = (rewrites bufs 0 ds).length := by rw [b2, a1.1]
  have hcnt : (rewrites bufs 0 ds).length < 2 ^ 27 := by rw [b2, hits, List.length_map]; exact hcount
  let cfg' : RConfig := { cfg with wanted := [] }
  have hcopies : All2 (fun d q => ∀ out, ∃ d', delivery cfg' out q = some d' ∧ CopyIn out d d') ds (rewrites bufs 0 ds) := by
    refine ⟨hlen, fun i d q hid hiq out => ?_⟩
    obtain ⟨ds2, c1, c2⟩ := rewritten_all cfg hsort hflt compress limit hz out bufs _ hr' hst'
    obtain rfl : ds2 = ds := all2_unique (f := fun x : Str × Put => delivery cfg x.1 x.2) c1 a1
    obtain ⟨-, -, ds', c3, c4⟩ := c2 0
    have hi : i < ds'.length := by rw [← c4.1]; exact (List.getElem?_eq_some_iff.1 hid).1
    exact ⟨ds'[i], c3.2 i q _ hiq (List.getElem?_eq_getElem hi), c4.2 i d _ hid (List.getElem?_eq_getElem hi)⟩
  have hok : Session.Ok cfg'.codec cfg'.std ⟨compress, rewrites bufs 0 ds⟩ := by
    refine ⟨fun p hp => (b1 p hp).1, fun p hp q hq => ?_⟩
    obtain ⟨x, hx, hxp⟩ := List.mem_map.1 (b1 p hp).2
    obtain ⟨y, hy, hyq⟩ := List.mem_map.1 (b1 q hq).2
    rw [← hxp, ← hyq]
    exact hruns _ (hmem x hx).2 _ (hmem y hy).2
  -- the parts
  obtain ⟨s, files, s1, s2, s3, s4, s5⟩ := split_held (codec := cfg'.codec) (std := cfg'.std) hcodec compress splitSize base hb hbl disk hd (rewrites bufs 0 ds) hok hcnt
  have hflat := C54_complete (bytesWith cfg.codec cfg.std compress) splitSize [] (rewrites bufs 0 ds)
  rw [List.nil_append] at hflat
  have hzip := zip_flatMap (files.map fun f : Str × List Byte => f.1) (distribute (bytesWith cfg.codec cfg.std compress) splitSize [] (rewrites bufs 0 ds)) (by rw [List.length_map]; exact s4.1)
  rw [hflat] at hzip
  have hheld := zip_held files _ s4
  have hin : ∀ x ∈ items ((files.map (·.1)).zip (distribute (bytesWith cfg'.codec cfg'.std compress) splitSize [] (rewrites bufs 0 ds))),
      (∃ n, n ≤ (allPuts ss).length ∧ IsPart base n x.1) ∧ x.2 ∈ rewrites bufs 0 ds := by
    intro x hx
    obtain ⟨h1, h2⟩ := mem_zip_items hx
    obtain ⟨f, hf, hfx⟩ := List.mem_map.1 h1
    obtain ⟨i, hi⟩ := List.getElem?_of_mem hf
    have hi2 : i < files.length := (List.getElem?_eq_some_iff.1 hi).1
    have hdl := distribute_length (bytesWith cfg.codec cfg.std compress) splitSize [] (rewrites bufs 0 ds)
    rw [← s4.1, b2, hits, List.length_map] at hdl
    exact ⟨⟨i, by omega, by rw [← hfx]; exact s5 i f hi⟩, by rw [← hflat]; exact h2⟩
  have hgood : ∀ x ∈ items ((files.map (·.1)).zip (distribute (bytesWith cfg'.codec cfg'.std compress) splitSize [] (rewrites bufs 0 ds))),
      (∀ h cols buf, x.2 = .event h cols buf → Storable cfg.std cfg.ignoreNull [] [] h cols ∧ Copyable (wantedCols [] (storedCols [] cols))) ∧
        Rewritable limit cfg.std x.1 x.2 := by
    intro x hx
    obtain ⟨⟨n, hn, hpart⟩, hx2⟩ := hin x hx
    obtain ⟨j, d, hdm, e⟩ := rewrites_mem hx2
    obtain ⟨y, hy, hyd⟩ := a1.mem_right hdm
    rw [e]
    exact rewritten_good cfg hsort hflt limit y.1 y.2 (hr' y hy) (hst' y hy) d hyd (bufs j) x.1 (fun h hh => hnames n x.1 hn hpart y.2 (hmem y hy).2 h (by rw [← (hmem y hy).1]; exact hh))
  obtain ⟨merged, r', ds1, ds', m1, m2, m3, m4, m5⟩ := merge_held cfg' hcodec hsort hflt files _ hheld s3 (fun x hx => (hgood x hx).1) compress limit hz
    (fun x hx => (hgood x hx).2) (by rw [items_length, hzip]; exact hcnt)
    (fun x hx y hy => hok.runs x.2 (hin x hx).2 y.2 (hin y hy).2) bufs2 out
  obtain ⟨parts, p1, p2⟩ := parts_of cfg' _ ds (by rw [hzip]; exact hcopies)
  have hds1 : parts.flatMap (·.2) = ds1 := all2_unique (f := fun x : Str × Put => delivery cfg' x.1 x.2) (items_all2 cfg' _ parts p1) m2
  have hl : ∀ c ∈ [(inName, ss)], Loadable cfg (allPuts c.2) := by
    intro c hc p hp file
    rw [List.mem_singleton] at hc
    subst hc
    cases p with
    | run h buf => simp [delivery, Put.loadedRun]
    | event h cols buf =>
      obtain ⟨h', L, T, e1, -⟩ := event_loaded cfg.std cfg.ignoreNull [] cfg.wanted h cols (hst _ hp h cols buf rfl).1 buf 0 1 (by omega)
      simp only [delivery, e1]
      simp
  obtain ⟨r, log, r2, c1, c2, c3⟩ := C33_everything_partial cfg hcodec _ _ h (by simp) hl 1 (Or.inl (Nat.le_refl 1))
  refine ⟨files, (log.filter fun x => countedEvent x.2).length, merged, r, ds, r', ds', ?_, m1, c1, ?_, m3, m4, ?_⟩
  · unfold splitFile
    rw [hdisk]
    simp only [c1, c2]
    have hds : log.map (·.2) = ds := by rw [c3, handed_single cfg _ _ a1]
    rw [hds, s1]
    simp only [bind, Except.bind, s2]
    rfl
  · intro gs
    obtain ⟨r3, d1, d2, -⟩ := C32_concatenation cfg hcodec _ _ h (by simp) hl gs
    rw [c1] at d1
    simp only [Prod.mk.injEq, true_and] at d1
    subst d1
    rw [d2, serve_inTurn cfg gs _ _ a1]
  · have hlab : (labelled parts).map (·.2) = ds1 := by
      rw [← hds1]
      unfold labelled
      rw [List.map_flatMap]
      congr 1
      funext p
      rw [List.map_map]
      exact List.map_id _
    rw [← hlab] at m5
    have m6 := All2.mapLeft (fun x : Str × Delivery => x.2) m5
    refine ⟨p2.1.trans m6.1, fun i d d' hd hd' => ?_⟩
    have hlt : i < (labelled parts).length := by rw [← p2.1]; exact (List.getElem?_eq_some_iff.1 hd).1
    exact copyIn_trans (p2.2 i d _ hd (List.getElem?_eq_getElem hlt)) (m6.2 i _ d' (List.getElem?_eq_getElem hlt) hd')

/-! ## Cases -/

theorem dec_ge (s : Str) : ∀ v : Nat, v * 10 ^ s.length ≤ s.foldl (fun v c => 10 * v + (c.toNat - 48)) v := by
  induction s with
  | nil => intro v; simp
  | cons c s ih =>
    intro v
    rw [List.foldl_cons, List.length_cons, Nat.pow_succ]
    refine Nat.le_trans ?_ (ih _)
    rw [← Nat.mul_assoc, Nat.mul_right_comm]
    exact Nat.mul_le_mul_right _ (by omega)

/-- Small numbers have three digits. -/
theorem number_small (s : Str) (n : Nat) (h : IsNumber s n) (hn : n < 10) : s = [48, 48, UInt8.ofNat (48 + n)] := by
  have h3 := h.three
  have hlen : s.length = 3 := by
    by_cases hl : 3 < s.length
    · exfalso
      have hh := h.short hl
      cases s with
      | nil => simp at hl
      | cons c s =>
        have hv := h.value
        unfold decValue at hv
        rw [List.foldl_cons] at hv
        have hg := dec_ge s (10 * 0 + (c.toNat - 48))
        rw [hv] at hg
        have hc := h.digits c List.mem_cons_self
        have hc48 : c.toNat ≠ 48 := fun hc => hh (by
          show some c = some 48
          rw [Option.some.injEq]
          exact UInt8.toNat_inj.1 (by rw [hc]; rfl))
        have h1 : 1 ≤ 10 * 0 + (c.toNat - 48) := by have := hc.1; omega
        have h2 : 10 ^ 3 ≤ 10 ^ s.length := Nat.pow_le_pow_right (by omega) (by simp at hl; omega)
        have h4 := Nat.mul_le_mul h1 h2
        omega
    · omega
  match s, hlen with
  | [a, b, c], _ =>
    have ha := h.digits a (by simp)
    have hb := h.digits b (by simp)
    have hc := h.digits c (by simp)
    have hv := h.value
    simp only [decValue, List.foldl_cons, List.foldl_nil] at hv
    unfold IsDec at ha hb hc
    have e1 : a = 48 := UInt8.toNat_inj.1 (by show a.toNat = 48; omega)
    have e2 : b = 48 := UInt8.toNat_inj.1 (by show b.toNat = 48; omega)
    have e3 : c = UInt8.ofNat (48 + n) := UInt8.toNat_inj.1 (by rw [UInt8.toNat_ofNat']; omega)
    rw [e1, e2, e3]

/-- The run header of the sample, read from one file and from another. -/
def renamedHeader (f g : Str) (n : W32) : RunHeader := { namedHeader f n with params := { (namedHeader f n).params with
  readOnly := false, strs := (omAssign strLt (str "LCIOFileName") [g] (namedHeader f n).params.strs).1 } }

theorem renamed_ok : ∀ k ∈ [0, 1, 2, 3, 4, 5], ∀ n ∈ [(3 : W32), 4],
    let h := renamedHeader (str "f") (str "run" ++ str "." ++ ([48, 48, UInt8.ofNat (48 + k)] : Str) ++ str ".slcio") n
    ParamsOk h.params ∧ Writable runRecordName [h.block] ∧ dataLen [h.block] ≤ 2 ^ 31 := by
  intro k hk n hn
  simp only [List.mem_cons, List.not_mem_nil, or_false] at hk hn
  rcases hk with rfl | rfl | rfl | rfl | rfl | rfl <;> rcases hn with rfl | rfl <;> exact ⟨by decide +kernel, by decide +kernel, by decide +kernel⟩

/-- The run headers in the sample can be written with the names of the parts. -/
theorem sample_renamed : ∀ n name, n ≤ (allPuts sampleSessions).length → IsPart (str "run") n name → ∀ p ∈ allPuts sampleSessions, ∀ h, p.loadedRun (str "f") = some h →
    Rewritable (2 ^ 31) ieee name (.run h []) := by
  intro k name hk hpart
  have h5 : (allPuts sampleSessions).length = 5 := by decide
  rw [h5] at hk
  obtain ⟨d, hd, rfl⟩ := hpart
  rw [number_small d k hd (by omega)]
  refine sample_puts _ ?_ (fun _ h he => by cases he) (fun _ h he => by cases he) (fun _ h he => by cases he)
  intro n hn buf h he h' he'
  have he : namedHeader (str "f") n = h := Option.some.inj he
  subst he
  have he' : renamedHeader (str "f") _ n = h' := Option.some.inj he'
  subst he'
  have a := renamed_ok k (by simp only [List.mem_cons, List.not_mem_nil, or_false]; omega) n (by simpa using hn)
  have b : (runHeaderOf 3).det.length < 2 ^ 31 ∧ (runHeaderOf 3).descr.length < 2 ^ 31 ∧ (runHeaderOf 3).subdets.length < 2 ^ 31 ∧
    ∀ s ∈ (runHeaderOf 3).subdets, s.length < 2 ^ 31 := by decide +kernel
  exact ⟨⟨b.1, b.2.1, b.2.2.1, b.2.2.2, a.1⟩, a.2⟩

/-- The sample sessions are split, with a limit of 400 bytes, and the parts are merged: the hypotheses are met. -/
example (bufs bufs2 : Nat → Str × Str) : ∃ bytes files n merged r ds r' ds',
    splitFile sampleCfg false bufs [(str "f", bytes)] (str "f") (str "run.slcio") 400 = .ok ([(str "f", bytes)] ++ files, n, .ok ()) ∧
    mergeFiles sampleCfg false bufs2 files = .ok (some merged, .ok ()) ∧
    Reader.openFiles sampleCfg false [(str "f", bytes)] = (.ok (), r) ∧ (∀ gs, gets sampleCfg gs r = .ok (inTurn gs ds)) ∧
    Reader.openFiles sampleCfg false [(str "out", merged)] = (.ok (), r') ∧ (∀ gs, gets sampleCfg gs r' = .ok (inTurn gs ds')) ∧ All2 (CopyIn (str "out")) ds ds' := by
  obtain ⟨bytes, h1, -⟩ := holds_sessions sampleCfg idCodec_lossless sampleSessions sampleSessions_ok
  have hf : FilesHold sampleCfg.codec sampleCfg.std [(str "f", bytes)] [(str "f", sampleSessions)] := Lcio.All2.cons ⟨rfl, h1, .inl sampleSessions_ok⟩ (Lcio.All2.nil _)
  have hfree : ∀ f ∈ [(str "f", bytes)], ∀ n, ¬ IsPart (str "run") n f.1 := by
    intro f hf n hp
    obtain ⟨d, h1, h2⟩ := hp
    have h3 := congrArg List.length h2
    rw [List.mem_singleton] at hf
    subst hf
    simp [str] at h3
  obtain ⟨files, n, merged, r, ds, r', ds', e⟩ := C107_partial sampleCfg idCodec_lossless ieee_sort viaFloat_twice (str "f") bytes sampleSessions hf sample_copyable false (2 ^ 31)
    (by simp) (sample_rewritable (str "f") (by simp)) (by decide) sample_runs bufs _ rfl (str "run") (by decide) (by decide) hfree 400 sample_renamed bufs2 (str "out")
  exact ⟨bytes, files, n, merged, r, ds, r', ds', e⟩

end Props
