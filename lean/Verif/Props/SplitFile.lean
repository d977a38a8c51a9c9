import Verif.Util.SplitFile
import Verif.Props.Merge
import Verif.Props.Split
/-
C89: the program lcio_split_file.
-/
namespace Props
open Sio Spec Lcio Util

theorem all2_unique {α β : Type} {f : α → Option β} {l : List α} {a b : List β} (ha : All2 (fun x y => f x = some y) l a) (hb : All2 (fun x y => f x = some y) l b) : a = b := by
  refine List.ext_getElem? fun i => ?_
  by_cases hi : i < l.length
  · have h1 := ha.2 i _ _ (List.getElem?_eq_getElem hi) (List.getElem?_eq_getElem (by rw [← ha.1]; exact hi))
    have h2 := hb.2 i _ _ (List.getElem?_eq_getElem hi) (List.getElem?_eq_getElem (by rw [← hb.1]; exact hi))
    rw [List.getElem?_eq_getElem (by rw [← ha.1]; exact hi), List.getElem?_eq_getElem (by rw [← hb.1]; exact hi)]
    simp only at h1 h2
    rw [← h1, ← h2]
  · rw [List.getElem?_eq_none (by rw [← ha.1]; omega), List.getElem?_eq_none (by rw [← hb.1]; omega)]

/-- Everything that is delivered from parts of a file, with the names of the files. -/
def labelled (parts : List (Str × List Delivery)) : List (Str × Delivery) := parts.flatMap fun p => p.2.map fun d => (p.1, d)

/-- Distributing copies over files. -/
theorem parts_of (cfg : RConfig) (L : List (Str × List Put)) (ds : List Delivery)
    (h : All2 (fun d q => ∀ out, ∃ d', delivery cfg out q = some d' ∧ CopyIn out d d') ds (L.flatMap (·.2))) :
    ∃ parts : List (Str × List Delivery), All2 (fun (l : Str × List Put) (p : Str × List Delivery) => p.1 = l.1 ∧ All2 (fun q d' => delivery cfg l.1 q = some d') l.2 p.2) L parts ∧
      All2 (fun d (x : Str × Delivery) => CopyIn x.1 d x.2) ds (labelled parts) := by
  induction L generalizing ds with
  | nil =>
    obtain rfl : ds = [] := List.length_eq_zero_iff.1 h.1
    exact ⟨[], Lcio.All2.nil _, Lcio.All2.nil _⟩
  | cons l L ih =>
    obtain ⟨name, qs⟩ := l
    -- the things in the first file
    have key : ∀ (qs : List Put) (ds : List Delivery), All2 (fun d q => ∀ out, ∃ d', delivery cfg out q = some d' ∧ CopyIn out d d') ds (qs ++ L.flatMap (·.2)) →
        ∃ ds1 ds2 ds', ds = ds1 ++ ds2 ∧ All2 (fun q d' => delivery cfg name q = some d') qs ds' ∧ All2 (CopyIn name) ds1 ds' ∧
          All2 (fun d q => ∀ out, ∃ d', delivery cfg out q = some d' ∧ CopyIn out d d') ds2 (L.flatMap (·.2)) := by
      intro qs
      induction qs with
      | nil => intro ds h; exact ⟨[], ds, [], rfl, Lcio.All2.nil _, Lcio.All2.nil _, h⟩
      | cons q qs ihq =>
        intro ds h
        cases ds with
        | nil => have := h.1; simp at this
        | cons d ds =>
          obtain ⟨b, rest, e, h1, h2⟩ := h.cons_inv
          simp only [List.cons_append, List.cons.injEq] at e
          obtain ⟨rfl, rfl⟩ := e
          obtain ⟨ds1, ds2, ds', e1, e2, e3, e4⟩ := ihq ds h2
          obtain ⟨d', f1, f2⟩ := h1 name
          exact ⟨d :: ds1, ds2, d' :: ds', by rw [e1]; rfl, Lcio.All2.cons f1 e2, Lcio.All2.cons f2 e3, e4⟩
    rw [List.flatMap_cons] at h
    obtain ⟨ds1, ds2, ds', rfl, e2, e3, e4⟩ := key qs ds h
    obtain ⟨parts, p1, p2⟩ := ih ds2 e4
    refine ⟨(name, ds') :: parts, Lcio.All2.cons ⟨rfl, e2⟩ p1, ?_⟩
    unfold labelled
    rw [List.flatMap_cons]
    have app : ∀ (a : List Delivery) (b : List Delivery), All2 (CopyIn name) a b →
        All2 (fun d (x : Str × Delivery) => CopyIn x.1 d x.2) (a ++ ds2) (b.map (fun d => (name, d)) ++ labelled parts) := by
      intro a
      induction a with
      | nil =>
        intro b hb
        obtain rfl : b = [] := List.length_eq_zero_iff.1 hb.1.symm
        exact p2
      | cons x a iha =>
        intro b hb
        obtain ⟨y, b, rfl, g1, g2⟩ := hb.cons_inv
        exact Lcio.All2.cons g1 (iha b g2)
    exact app _ _ e3

/-- Things in files, with the names of the files. -/
theorem items_all2 (cfg : RConfig) (L : List (Str × List Put)) (parts : List (Str × List Delivery))
    (h : All2 (fun (l : Str × List Put) (p : Str × List Delivery) => p.1 = l.1 ∧ All2 (fun q d' => delivery cfg l.1 q = some d') l.2 p.2) L parts) :
    All2 (fun (x : Str × Put) d => delivery cfg x.1 x.2 = some d) (items L) (parts.flatMap (·.2)) := by
  induction L generalizing parts with
  | nil =>
    obtain rfl : parts = [] := List.length_eq_zero_iff.1 h.1.symm
    exact Lcio.All2.nil _
  | cons l L ih =>
    obtain ⟨p, parts, rfl, ⟨-, h1⟩, h2⟩ := h.cons_inv
    unfold items
    rw [List.flatMap_cons, List.flatMap_cons]
    have app : ∀ (a : List Put) (b : List Delivery), All2 (fun q d' => delivery cfg l.1 q = some d') a b →
        All2 (fun (x : Str × Put) d => delivery cfg x.1 x.2 = some d) (a.map (fun p => (l.1, p)) ++ items L) (b ++ parts.flatMap (·.2)) := by
      intro a
      induction a with
      | nil =>
        intro b hb
        obtain rfl : b = [] := List.length_eq_zero_iff.1 hb.1.symm
        exact ih parts h2
      | cons x a iha =>
        intro b hb
        obtain ⟨y, b, rfl, g1, g2⟩ := hb.cons_inv
        exact Lcio.All2.cons g1 (iha b g2)
    exact app _ _ h1

theorem zip_flatMap {α β : Type} (names : List α) (chunks : List (List β)) (h : names.length = chunks.length) : (names.zip chunks).flatMap (·.2) = chunks.flatten := by
  induction names generalizing chunks with
  | nil => cases chunks with
    | nil => rfl
    | cons c cs => simp at h
  | cons n names ih => cases chunks with
    | nil => simp at h
    | cons c cs => simp only [List.zip_cons_cons, List.flatMap_cons, List.flatten_cons, ih cs (by simpa using h)]

/-- **C89** (partial). A file, written in any number of sessions, is split with `lcio_split_file`, by a reader that loads all or some of the collections, to files whose names have not been used. All files that were there before, also the one that
is split, are kept as they are. The new files have the numbers 0, 1 and so on in their names; each can be read alone, and all together, in their order, give copies of exactly what is in the file, in the same order, nothing twice and nothing left out. The
number of events is printed. Their sizes are as C54 says (`C54_rule`): the next file is begun exactly when the size of the last one exceeds the limit.

Missing: things that cannot be written again, as in C71; writing that fails; output names with other extensions, for which see C54. -/
theorem C89_split_partial (cfg : RConfig) (hcodec : Lossless cfg.codec) (hsort : SortLaw cfg.std)
    (hflt : ∀ x, viaFloat cfg.std (viaFloat cfg.std x) = viaFloat cfg.std x) (inName : Str) (bytes : List Byte) (ss : List Session)
    (h : FilesHold cfg.codec cfg.std [(inName, bytes)] [(inName, ss)])
    (hst : ∀ p ∈ allPuts ss, ∀ h cols buf, p = .event h cols buf → Storable cfg.std cfg.ignoreNull [] cfg.wanted h cols ∧ Copyable (wantedCols cfg.wanted (storedCols [] cols)))
    (compress : Bool) (limit : Nat) (hz : compress = true → CompressesUpTo cfg.codec limit) (hr : ∀ p ∈ allPuts ss, Rewritable limit cfg.std inName p)
    (hcount : (allPuts ss).length < 2 ^ 27)
    (hruns : ∀ p ∈ allPuts ss, ∀ q ∈ allPuts ss, -2 ^ 31 ≤ p.key.run.toInt - q.key.run.toInt ∧ p.key.run.toInt - q.key.run.toInt < 2 ^ 31)
    (bufs : Nat → Str × Str) (disk : List (Str × List Byte)) (hdisk : disk.lookup inName = some bytes) (base : Str) (hb : base ≠ []) (hbl : base.length < 2 ^ 32 - 2)
    (hd : ∀ f ∈ disk, ∀ n, ¬ IsPart base n f.1) (splitSize : Int) :
    ∃ r ds files parts, Reader.openFiles cfg false [(inName, bytes)] = (.ok (), r) ∧ (∀ gs, gets cfg gs r = .ok (inTurn gs ds)) ∧
      splitFile cfg compress bufs disk inName (base ++ str ".slcio") splitSize = .ok (disk ++ files, (ds.filter Get.event.gives).length, .ok ()) ∧
      parts.map (·.1) = files.map (·.1) ∧ (∀ (i : Nat) f, files[i]? = some f → IsPart base i f.1) ∧
      (∀ (i : Nat) f p, files[i]? = some f → parts[i]? = some p → ∀ gs, ∃ r, Reader.openFiles { cfg with wanted := [] } false [f] = (.ok (), r) ∧
        gets { cfg with wanted := [] } gs r = .ok (inTurn gs p.2)) ∧
      (∀ gs, ∃ r, Reader.openFiles { cfg with wanted := [] } false files = (.ok (), r) ∧ gets { cfg with wanted := [] } gs r = .ok (inTurn gs (parts.flatMap (·.2)))) ∧
      All2 (fun d (x : Str × Delivery) => CopyIn x.1 d x.2) ds (labelled parts) ∧
      parts.map (fun p => p.2.length) = (distribute (bytesWith cfg.codec cfg.std compress) splitSize [] (rewrites bufs 0 ds)).map List.length := by
  have hits : contentsOf [(inName, ss)] = (allPuts ss).map fun p => (inName, p) := by simp [contentsOf, items]
  have hmem : ∀ x ∈ contentsOf [(inName, ss)], x.1 = inName ∧ x.2 ∈ allPuts ss := by
    intro x hx
    rw [hits] at hx
    obtain ⟨p, hp, rfl⟩ := List.mem_map.1 hx
    exact ⟨rfl, hp⟩
  have hr' : ∀ x ∈ contentsOf [(inName, ss)], Rewritable limit cfg.std x.1 x.2 := fun x hx => by rw [(hmem x hx).1]; exact hr _ (hmem x hx).2
  have hst' : ∀ x ∈ contentsOf [(inName, ss)], ∀ h cols buf, x.2 = .event h cols buf →
      Storable cfg.std cfg.ignoreNull [] cfg.wanted h cols ∧ Copyable (wantedCols cfg.wanted (storedCols [] cols)) := fun x hx => hst _ (hmem x hx).2
  obtain ⟨ds, a1, a2⟩ := rewritten_all cfg hsort hflt compress limit hz [] bufs _ hr' hst'
  obtain ⟨b1, b2, -⟩ := a2 0
  have hlen : ds.length = (rewrites bufs 0 ds).length := by rw [b2, a1.1]
  let cfg' : RConfig := { cfg with wanted := [] }
  -- each thing can be read from whatever file it is written to
  have hcopies : All2 (fun d q => ∀ out, ∃ d', delivery cfg' out q = some d' ∧ CopyIn out d d') ds (rewrites bufs 0 ds) := by
    refine ⟨hlen, fun i d q hid hiq out => ?_⟩
    obtain ⟨ds2, c1, c2⟩ := rewritten_all cfg hsort hflt compress limit hz out bufs _ hr' hst'
    obtain rfl : ds2 = ds := all2_unique (f := fun x : Str × Put => delivery cfg x.1 x.2) c1 a1
    obtain ⟨-, -, ds', c3, c4⟩ := c2 0
    have hi : i < ds'.length := by rw [← c4.1]; exact (List.getElem?_eq_some_iff.1 hid).1
    exact ⟨ds'[i], c3.2 i q _ hiq (List.getElem?_eq_getElem hi), c4.2 i d _ hid (List.getElem?_eq_getElem hi)⟩
  have hl : ∀ c ∈ [(inName, ss)], Loadable cfg (allPuts c.2) := by
    intro c hc p hp file
    rw [List.mem_singleton] at hc
    subst hc
    cases p with
    | run h buf => simp [delivery, Put.loadedRun]
    | event h cols buf =>
      obtain ⟨h', L, T, e1, -⟩ := event_loaded cfg.std cfg.ignoreNull [] cfg.wanted h cols (hst _ hp h cols buf rfl).1 buf 0 1 (by omega)
      simp only [delivery, e1]
      simp
  have hl' : Loadable cfg' (rewrites bufs 0 ds) := by
    intro q hq file
    obtain ⟨i, hi⟩ := List.getElem?_of_mem hq
    have hlt : i < ds.length := by rw [hlen]; exact (List.getElem?_eq_some_iff.1 hi).1
    obtain ⟨d', e, -⟩ := hcopies.2 i _ q (List.getElem?_eq_getElem hlt) hi file
    rw [e]; simp
  have hok : Session.Ok cfg'.codec cfg'.std ⟨compress, rewrites bufs 0 ds⟩ := by
    refine ⟨fun p hp => (b1 p hp).1, fun p hp q hq => ?_⟩
    obtain ⟨x, hx, hxp⟩ := List.mem_map.1 (b1 p hp).2
    obtain ⟨y, hy, hyq⟩ := List.mem_map.1 (b1 q hq).2
    rw [← hxp, ← hyq]
    exact hruns _ (hmem x hx).2 _ (hmem y hy).2
  obtain ⟨s, files, s1, s2, s3, s4, -, s6, s7⟩ := C54_split_partial cfg' hcodec compress splitSize base hb hbl disk hd (rewrites bufs 0 ds) hok
    (by rw [b2, hits, List.length_map]; exact hcount) hl'
  have hflat := C54_complete (bytesWith cfg.codec cfg.std compress) splitSize [] (rewrites bufs 0 ds)
  rw [List.nil_append] at hflat
  have hzip := zip_flatMap (files.map fun f : Str × List Byte => f.1) (distribute (bytesWith cfg.codec cfg.std compress) splitSize [] (rewrites bufs 0 ds)) (by rw [List.length_map]; exact s3)
  rw [hflat] at hzip
  obtain ⟨parts, p1, p2⟩ := parts_of cfg' _ ds (by rw [hzip]; exact hcopies)
  obtain ⟨r, log, r2, c1, c2, c3⟩ := C33_everything_partial cfg hcodec _ _ h (by simp) hl 1 (Or.inl (Nat.le_refl 1))
  have hz1 : ((files.map fun f : Str × List Byte => f.1).zip (distribute (bytesWith cfg.codec cfg.std compress) splitSize [] (rewrites bufs 0 ds))).length = files.length := by
    rw [List.length_zip, List.length_map, s3]
    exact Nat.min_self _
  refine ⟨r, ds, files, parts, c1, ?_, ?_, ?_, s4, ?_, ?_, p2, ?_⟩
  · intro gs
    obtain ⟨r3, d1, d2, -⟩ := C32_concatenation cfg hcodec _ _ h (by simp) hl gs
    rw [c1] at d1
    simp only [Prod.mk.injEq, true_and] at d1
    subst d1
    rw [d2, serve_inTurn cfg gs _ _ a1]
  · unfold splitFile
    rw [hdisk]
    simp only [c1, c2]
    have hds : log.map (·.2) = ds := by rw [c3, handed_single cfg _ _ a1]
    have hn : (log.filter fun x => countedEvent x.2).length = (ds.filter Get.event.gives).length := by
      rw [← hds, List.filter_map, List.length_map]
      congr 2
      funext x
      simp only [Function.comp]
      cases x.2 <;> rfl
    rw [hds, s1, hn]
    simp only [bind, Except.bind, s2]
    rfl
  · refine List.ext_getElem? fun i => ?_
    rw [List.getElem?_map, List.getElem?_map]
    by_cases hi : i < files.length
    · have hp : i < parts.length := by rw [← p1.1, hz1]; exact hi
      have hc : i < (distribute (bytesWith cfg.codec cfg.std compress) splitSize [] (rewrites bufs 0 ds)).length := by rw [← s3]; exact hi
      have := p1.2 i _ _ (List.getElem?_eq_getElem (by rw [hz1]; exact hi)) (List.getElem?_eq_getElem hp)
      rw [List.getElem?_eq_getElem hp, List.getElem?_eq_getElem hi]
      simp only [Option.map_some, this.1, List.getElem_zip, List.getElem_map]
    · rw [List.getElem?_eq_none (by rw [← p1.1, hz1]; omega), List.getElem?_eq_none (by omega)]
      rfl
  · intro i f p hf hp gs
    have hi : i < files.length := (List.getElem?_eq_some_iff.1 hf).1
    have hc : i < (distribute (bytesWith cfg.codec cfg.std compress) splitSize [] (rewrites bufs 0 ds)).length := by rw [← s3]; exact hi
    obtain ⟨r, e1, e2⟩ := s7 i f _ hf (List.getElem?_eq_getElem hc) gs
    refine ⟨r, e1, ?_⟩
    have hzi : ((files.map fun f : Str × List Byte => f.1).zip (distribute (bytesWith cfg.codec cfg.std compress) splitSize [] (rewrites bufs 0 ds)))[i]? =
        some (f.1, (distribute (bytesWith cfg.codec cfg.std compress) splitSize [] (rewrites bufs 0 ds))[i]) := by
      rw [List.getElem?_eq_getElem (by rw [hz1]; exact hi), List.getElem_zip, List.getElem_map]
      have := (List.getElem?_eq_some_iff.1 hf).2
      rw [this]
    have hpi := p1.2 i _ p hzi hp
    rw [e2, serve_inTurn cfg' gs _ p.2]
    have := items_all2 cfg' [(f.1, (distribute (bytesWith cfg.codec cfg.std compress) splitSize [] (rewrites bufs 0 ds))[i])] [p] (Lcio.All2.cons hpi (Lcio.All2.nil _))
    simpa using this
  · intro gs
    obtain ⟨r, e1, e2⟩ := s6 gs
    exact ⟨r, e1, by rw [e2, serve_inTurn cfg' gs _ _ (items_all2 cfg' _ parts p1)]⟩
  · refine List.ext_getElem? fun i => ?_
    rw [List.getElem?_map, List.getElem?_map]
    by_cases hi : i < files.length
    · have hp : i < parts.length := by rw [← p1.1, hz1]; exact hi
      have hc : i < (distribute (bytesWith cfg.codec cfg.std compress) splitSize [] (rewrites bufs 0 ds)).length := by rw [← s3]; exact hi
      have := p1.2 i _ _ (List.getElem?_eq_getElem (by rw [hz1]; exact hi)) (List.getElem?_eq_getElem hp)
      rw [List.getElem?_eq_getElem hp, List.getElem?_eq_getElem hc]
      have h2 := this.2.1
      rw [List.getElem_zip] at h2
      simp only [Option.map_some, h2]
    · rw [List.getElem?_eq_none (by rw [← p1.1, hz1]; omega), List.getElem?_eq_none (by rw [← s3]; omega)]
      rfl

/-! ## Cases -/

/-- The sample sessions are split, with a limit of 400 bytes: the hypotheses are met. -/
example (bufs : Nat → Str × Str) : ∃ bytes r ds files parts, Reader.openFiles sampleCfg false [(str "f", bytes)] = (.ok (), r) ∧
    (∀ gs, gets sampleCfg gs r = .ok (inTurn gs ds)) ∧ splitFile sampleCfg false bufs [(str "in.slcio", [7]), (str "f", bytes)] (str "f") (str "run.slcio") 400 = .ok ([(str "in.slcio", [7]), (str "f", bytes)] ++ files, (ds.filter Get.event.gives).length, .ok ()) ∧
    parts.map (·.1) = files.map (·.1) ∧ All2 (fun d (x : Str × Delivery) => CopyIn x.1 d x.2) ds (labelled parts) := by
  obtain ⟨bytes, h1, -⟩ := holds_sessions sampleCfg idCodec_lossless sampleSessions sampleSessions_ok
  have hf : FilesHold sampleCfg.codec sampleCfg.std [(str "f", bytes)] [(str "f", sampleSessions)] := Lcio.All2.cons ⟨rfl, h1, .inl sampleSessions_ok⟩ (Lcio.All2.nil _)
  have hfree : ∀ f ∈ [(str "in.slcio", [7]), (str "f", bytes)], ∀ n, ¬ IsPart (str "run") n f.1 := by
    intro f hf n hp
    obtain ⟨d, h1, h2⟩ := hp
    have hl := h1.three
    have h3 := congrArg List.length h2
    simp only [List.mem_cons, List.not_mem_nil, or_false] at hf
    rcases hf with rfl | rfl
    · simp [str] at h3
    · simp [str] at h3
  obtain ⟨r, ds, files, parts, e1, e2, e3, e4, -, -, -, e5, -⟩ := C89_split_partial sampleCfg idCodec_lossless ieee_sort viaFloat_twice (str "f") bytes sampleSessions hf sample_copyable false (2 ^ 31)
    (by simp) (sample_rewritable (str "f") (by simp)) (by decide) sample_runs bufs _ rfl (str "run") (by decide) (by decide) hfree 400
  exact ⟨bytes, r, ds, files, parts, e1, e2, e3, e4, e5⟩

end Props
