import Verif.Util.SplitLemmas
import Verif.Props.SessionCases
/-
Properties of the split writer: C54.
-/
namespace Props
open Sio Spec Lcio Util

/-- Reading files that hold some things. -/
theorem gets_hold (cfg : RConfig) (files : List (Str × List Byte)) (chunks : List (List Put))
    (h : All2 (fun (f : Str × List Byte) c => FileHolds cfg.codec cfg.std f.2 c) files chunks) (hne : files ≠ []) (hl : ∀ c ∈ chunks, Loadable cfg c) (gs : List Get) :
    ∃ r, Reader.openFiles cfg false files = (.ok (), r) ∧ gets cfg gs r = .ok (serve cfg gs (items ((files.map (·.1)).zip chunks))) := by
  have key : ∀ (files : List (Str × List Byte)) (chunks : List (List Put)), All2 (fun (f : Str × List Byte) c => FileHolds cfg.codec cfg.std f.2 c) files chunks →
      All2 (fun (f : Str × List Byte) (q : Str × List Put) => f.1 = q.1 ∧ FileHolds cfg.codec cfg.std f.2 q.2) files ((files.map (·.1)).zip chunks) := by
    intro files
    induction files with
    | nil => intro chunks _; exact Lcio.All2.nil _
    | cons f files ih =>
      intro chunks h
      obtain ⟨c, cs, rfl, h1, h2⟩ := h.cons_inv
      exact Lcio.All2.cons ⟨rfl, h1⟩ (ih cs h2)
  cases files with
  | nil => exact absurd rfl hne
  | cons f files =>
    have hk := key _ _ h
    obtain ⟨c, cs, rfl, -, -⟩ := h.cons_inv
    obtain ⟨r, h1, h2⟩ := openFiles_at cfg f files (f.1, c) ((files.map fun f : Str × List Byte => f.1).zip cs) hk
    refine ⟨r, h1, gets_serve cfg gs r _ _ _ h2 ?_⟩
    intro x hx
    obtain ⟨y, hy, hz⟩ := List.mem_flatMap.1 hx
    obtain ⟨p, hp, rfl⟩ := List.mem_map.1 hz
    have hy2 : y.2 ∈ c :: cs := by
      rcases List.mem_cons.1 hy with rfl | hy
      · exact List.mem_cons_self ..
      · exact List.mem_cons_of_mem _ (List.of_mem_zip (a := y.1) (b := y.2) hy).2
    exact hl _ hy2 p hp _

/-- **C54**: nothing is lost, doubled or exchanged when things are distributed. -/
theorem C54_complete (size : List Put → Nat) (limit : Int) (cur ps : List Put) : (distribute size limit cur ps).flatten = cur ++ ps := by
  induction ps generalizing cur with
  | nil => simp [distribute]
  | cons p ps ih =>
    unfold distribute
    split
    · simp [ih]
    · rw [ih]; simp

theorem distribute_mem {size : List Put → Nat} {limit : Int} {cur ps : List Put} {c : List Put} (h : c ∈ distribute size limit cur ps) : ∀ p ∈ c, p ∈ cur ++ ps := by
  intro p hp
  rw [← C54_complete size limit cur ps]
  exact List.mem_flatten.2 ⟨c, h, hp⟩

/-- **C54**: the rule. Every file but the last one is larger than the limit, and it was not before the last thing was written to it, if that
was not the first thing in a file that was started because of the limit. -/
theorem C54_rule (size : List Put → Nat) (limit : Int) (ps : List Put) :
    (∀ (i : Nat) c, (distribute size limit [] ps)[i]? = some c → i + 1 < (distribute size limit [] ps).length → limit < size c) ∧
    (∀ (i : Nat) c l l', (distribute size limit [] ps)[i]? = some c → c = l ++ l' → l' ≠ [] → l ≠ [] ∨ i = 0 → (size l : Int) ≤ limit) := by
  have key : ∀ (ps cur : List Put), (∀ l l', cur = l ++ l' → l' ≠ [] → l ≠ [] → (size l : Int) ≤ limit) →
      (∀ (i : Nat) c, (distribute size limit cur ps)[i]? = some c → i + 1 < (distribute size limit cur ps).length → limit < size c) ∧
      (∀ (i : Nat) c l l', (distribute size limit cur ps)[i]? = some c → c = l ++ l' → l' ≠ [] → l ≠ [] → (size l : Int) ≤ limit) := by
    intro ps
    induction ps with
    | nil =>
      intro cur hc
      refine ⟨?_, ?_⟩
      · intro i c _ hl; simp only [distribute, List.length_cons, List.length_nil] at hl; omega
      · intro i c l l' hi e h1 h2
        cases i with
        | zero => simp only [distribute, List.getElem?_cons_zero, Option.some.injEq] at hi; exact hc l l' (hi.trans e) h1 h2
        | succ i => simp [distribute] at hi
    | cons p ps ih =>
      intro cur hc
      by_cases hb : limit < (size cur : Int)
      · have e : distribute size limit cur (p :: ps) = cur :: distribute size limit [p] ps := by rw [distribute, if_pos hb]
        rw [e]
        obtain ⟨a1, a2⟩ := ih [p] (by
          intro l l' e h1 h2
          cases l with
          | nil => exact absurd rfl h2
          | cons x l => simp only [List.cons_append, List.cons.injEq] at e; have := List.append_eq_nil_iff.1 e.2.symm; exact absurd this.2 h1)
        refine ⟨?_, ?_⟩
        · intro i c hi hl
          cases i with
          | zero => simp only [List.getElem?_cons_zero, Option.some.injEq] at hi; rw [← hi]; exact hb
          | succ i => exact a1 i c (by simpa using hi) (by simpa using hl)
        · intro i c l l' hi e h1 h2
          cases i with
          | zero => simp only [List.getElem?_cons_zero, Option.some.injEq] at hi; exact hc l l' (hi.trans e) h1 h2
          | succ i => exact a2 i c l l' (by simpa using hi) e h1 h2
      · have e : distribute size limit cur (p :: ps) = distribute size limit (cur ++ [p]) ps := by rw [distribute, if_neg hb]
        rw [e]
        apply ih
        intro l l' e h1 h2
        obtain ⟨l'', x, rfl⟩ : ∃ l'' x, l' = l'' ++ [x] := ⟨l'.dropLast, l'.getLast h1, (List.dropLast_append_getLast h1).symm⟩
        rw [← List.append_assoc] at e
        obtain ⟨e1, -⟩ := List.append_inj' e rfl
        by_cases h3 : l'' = []
        · subst h3; rw [List.append_nil] at e1; rw [← e1]; omega
        · exact hc l l'' e1 h3 h2
  obtain ⟨k1, k2⟩ := key ps [] (by intro l l' e h1; have := List.append_eq_nil_iff.1 e.symm; exact absurd this.2 h1)
  refine ⟨k1, ?_⟩
  intro i c l l' hi e h1 h2
  by_cases hl : l = []
  · rcases h2 with h2 | h2
    · exact absurd hl h2
    · subst h2 hl
      by_cases hb : limit < (size [] : Int)
      · cases ps with
        | nil => simp [distribute] at hi; rw [hi] at e; simp at e; exact absurd e h1
        | cons p ps => rw [distribute, if_pos hb] at hi; simp at hi; rw [hi] at e; simp at e; exact absurd e h1
      · omega
  · exact k2 i c l l' hi e h1 hl

/-- **C54** for names with the extension ".slcio" and a new split writer. What is written between `open` and `close` is distributed over new files as `distribute` says: see
`C54_complete` and `C54_rule`, where the size of a file is that of a file in which a writer has written the same. The files have consecutive numbers from 0 on, and different names. A
reader gets from all the files together, and from each of them, the things that were written to them. Nothing else on the disk changes. Missing: other extensions, see
`C54_fails_for_other_extension`, and opening again, see `C54_fails_for_second_open`. -/
theorem C54_split_partial (cfg : RConfig) (hcodec : Lossless cfg.codec) (compress : Bool) (limit : Int) (base : Str) (hb : base ≠ []) (hbl : base.length < 2 ^ 32 - 2)
    (disk : List (Str × List Byte)) (hd : ∀ f ∈ disk, ∀ n, ¬ IsPart base n f.1) (ps : List Put) (hps : Session.Ok cfg.codec cfg.std ⟨compress, ps⟩)
    (hn : ps.length < 2 ^ 27) (hl : Loadable cfg ps) :
    ∃ s files, splitSession cfg.codec cfg.std compress { maxBytes := limit, disk := disk } (base ++ str ".slcio") ps = .ok s ∧ s.disk = disk ++ files ∧
      files.length = (distribute (bytesWith cfg.codec cfg.std compress) limit [] ps).length ∧
      (∀ (i : Nat) f, files[i]? = some f → IsPart base i f.1) ∧ (files.map (·.1)).Nodup ∧
      (∀ gs, ∃ r, Reader.openFiles cfg false files = (.ok (), r) ∧
        gets cfg gs r = .ok (serve cfg gs (items ((files.map (·.1)).zip (distribute (bytesWith cfg.codec cfg.std compress) limit [] ps))))) ∧
      (∀ (i : Nat) f c, files[i]? = some f → (distribute (bytesWith cfg.codec cfg.std compress) limit [] ps)[i]? = some c → ∀ gs, ∃ r,
        Reader.openFiles cfg false [f] = (.ok (), r) ∧ gets cfg gs r = .ok (serve cfg gs (items [(f.1, c)]))) := by
  obtain ⟨s0, h1, h2⟩ := open_first (codec := cfg.codec) (std := cfg.std) (compress := compress) limit base hb hbl disk
    (fun f hf he => hd f hf 0 (by rw [he]; exact partName_part base 0))
  obtain ⟨s1, s2, files, r1, r2, r3, r4, r5, r6, r7, r8, r9⟩ := split_loop hcodec ps hps.puts disk 0 [] s0 h2 (runsClose_of _ hps.runs) hn (by omega)
    (fun f hf j _ he => hd f hf j (by rw [he]; exact partName_part base j))
  have hlc : ∀ c ∈ distribute (bytesWith cfg.codec cfg.std compress) limit [] ps, Loadable cfg c := fun c hc p hp => hl p (by simpa using distribute_mem hc p hp)
  have hname : ∀ (i : Nat) (f : Str × List Byte), files[i]? = some f → f.1 = partName base i := by
    intro i f hf
    have e : (files.map (·.1))[i]? = some f.1 := by rw [List.getElem?_map, hf]; rfl
    rw [r4, List.getElem?_map, List.getElem?_range' (List.getElem?_eq_some_iff.1 hf).1] at e
    simpa using e.symm
  refine ⟨s2, files, ?_, r3, r5.1, fun i f hf => by rw [hname i f hf]; exact partName_part base i, ?_, fun gs => gets_hold cfg files _ r5 r9 hlc gs, ?_⟩
  · unfold splitSession
    rw [h1]
    simp only
    rw [r1]
    simp only
    rw [r2]
  · rw [r4]
    refine List.Nodup.map ?_ List.nodup_range'
    intro a b hab
    exact part_inj base a b _ (partName_part base a) (by rw [hab]; exact partName_part base b)
  · intro i f c hf hc gs
    obtain ⟨r, a1, a2⟩ := gets_hold cfg [f] [c] (Lcio.All2.cons (r5.2 i f c hf hc) (Lcio.All2.nil _)) (by simp)
      (fun x hx => by rw [List.mem_singleton.1 hx]; exact hlc c (List.mem_of_getElem? hc)) gs
    exact ⟨r, a1, a2⟩

/-- **C54**, for any history. Whatever calls are made of a split writer, with any names, also calls that throw: files that were there before are kept as they are, and all the files have
different names. -/
theorem C54_keeps_files (codec : Codec) (std : Std Pid) (compress : Bool) (limit : Int) (disk : List (Str × List Byte)) (hd : (disk.map (·.1)).Nodup) (cs : List SplitCall) :
    disk <+: (splitCalls codec std compress { maxBytes := limit, disk := disk } cs).disk ∧
      ((splitCalls codec std compress { maxBytes := limit, disk := disk } cs).disk.map (·.1)).Nodup := by
  have hof : ∀ s : SplitWriter, s.openFile.2.disk = s.disk := by
    intro s; unfold SplitWriter.openFile; simp only; split; rfl; split <;> rfl
  have hgf : ∀ s : SplitWriter, s.getFilename.disk = s.disk := by
    intro s; unfold SplitWriter.getFilename; split <;> rfl
  have hcl : ∀ s : SplitWriter, s.disk <+: s.close.2.disk := by
    intro s; unfold SplitWriter.close; split
    · exact List.prefix_rfl
    · exact List.prefix_rfl
    · exact List.prefix_append _ _
  have hop : ∀ (s : SplitWriter) (name : Str), (s.open name).2.disk = s.disk := by
    intro s name
    unfold SplitWriter.open
    split
    · rfl
    · rename_i s' hs
      rw [hof, hgf]
      unfold SplitWriter.setBaseFilename at hs
      simp only at hs
      repeat' split at hs
      all_goals first | (cases hs; rfl) | cases hs
  have hnx : ∀ s : SplitWriter, s.disk <+: s.next.2.disk := by
    intro s
    unfold SplitWriter.next
    simp only
    have h1 := hcl s.getFilename
    rw [hgf] at h1
    split
    · split
      · rename_i hc; rw [hc] at h1; exact h1
      · rename_i hc; rw [hc] at h1; rw [hof, hgf]; exact h1
    · rw [hgf]; exact List.prefix_rfl
  have hpt : ∀ (s : SplitWriter) (p : Put), s.disk <+: (s.put codec std compress p).2.disk := by
    intro s p
    have h1 := hnx s
    cases p with
    | run h buf =>
      simp only [SplitWriter.put, SplitWriter.writeRunHeader]
      split
      · rename_i hc; rw [hc] at h1; exact h1
      · rename_i hc; rw [hc] at h1; exact h1
    | event h cols buf =>
      simp only [SplitWriter.put, SplitWriter.writeEvent]
      split
      · rename_i hc; rw [hc] at h1; exact h1
      · rename_i hc; rw [hc] at h1; exact h1
  have key : ∀ (cs : List SplitCall) (s : SplitWriter), Tidy s → s.disk <+: (splitCalls codec std compress s cs).disk ∧ Tidy (splitCalls codec std compress s cs) := by
    intro cs
    induction cs with
    | nil => intro s h; exact ⟨List.prefix_rfl, h⟩
    | cons c cs ih =>
      intro s h
      cases c with
      | «open» name =>
        obtain ⟨h1, h2⟩ := ih _ (h.open name)
        rw [hop] at h1
        exact ⟨h1, h2⟩
      | put p =>
        obtain ⟨h1, h2⟩ := ih _ (h.put (codec := codec) (std := std) (compress := compress) p)
        exact ⟨(hpt s p).trans h1, h2⟩
      | close =>
        obtain ⟨h1, h2⟩ := ih _ h.close
        exact ⟨(hcl s).trans h1, h2⟩
  obtain ⟨h1, h2⟩ := key cs { maxBytes := limit, disk := disk } ⟨hd, fun h => absurd rfl h⟩
  exact ⟨h1, h2.nodup⟩

/-- **C54** fails for names with another extension of the form ".?lcio", which `open` accepts: whatever the limit and whatever is written, everything goes in one file. The writer adds ".slcio" to the name,
and the size that is looked at is that of a file that does not exist. -/
theorem C54_fails_for_other_extension (codec : Codec) (hcodec : Lossless codec) (std : Std Pid) (compress : Bool) (limit : Int) (hlim : 0 ≤ limit) (base : Str) (hb : base ≠ [])
    (hbl : base.length < 2 ^ 32 - 2) (x : Byte) (hx : x ≠ 46) (hs : x ≠ 115) (disk : List (Str × List Byte))
    (hd : ∀ f ∈ disk, f.1 ≠ base ++ str ".000." ++ [x] ++ str "lcio" ∧ f.1 ≠ base ++ str ".000." ++ [x] ++ str "lcio" ++ str ".slcio")
    (ps : List Put) (hps : Session.Ok codec std ⟨compress, ps⟩) (hn : ps.length < 2 ^ 27) :
    ∃ s bytes, splitSession codec std compress { maxBytes := limit, disk := disk } (base ++ str "." ++ [x] ++ str "lcio") ps = .ok s ∧
      s.disk = disk ++ [(base ++ str ".000." ++ [x] ++ str "lcio" ++ str ".slcio", bytes)] := by
  have e0 : base ++ str ".000." ++ [x] ++ str "lcio" = base ++ str ".000" ++ [46, x, 108, 99, 105, 111] := by simp [str]
  have e1 : base ++ str "." ++ [x] ++ str "lcio" = base ++ [46, x, 108, 99, 105, 111] := by simp [str]
  have e2 : base ++ str "." ++ countingString 0 ++ [46, x, 108, 99, 105, 111] = base ++ str ".000" ++ [46, x, 108, 99, 105, 111] := by
    have : countingString 0 = str "000" := by decide
    rw [this]; simp [str]
  rw [e0] at hd
  rw [e1, e0]
  have hopen : ∃ s0, ({ maxBytes := limit, disk := disk } : SplitWriter).open (base ++ [46, x, 108, 99, 105, 111]) = (.ok (), s0) ∧ Blind codec std compress [] s0 ∧
      s0.disk = disk ∧ s0.current = base ++ str ".000" ++ [46, x, 108, 99, 105, 111] ++ str ".slcio" := by
    refine ⟨{ maxBytes := limit, disk := disk, base := base, extension := [46, x, 108, 99, 105, 111], lastCount := 0,
              filename := base ++ str ".000" ++ [46, x, 108, 99, 105, 111], wrt := { stream := some { bytes := [] } },
              current := base ++ str ".000" ++ [46, x, 108, 99, 105, 111] ++ str ".slcio" }, ?_, ⟨rfl, ?_, ?_, ?_, hlim⟩, rfl, rfl⟩
    · unfold SplitWriter.open
      rw [setBase_ok _ base x hx hb hbl]
      simp only
      unfold SplitWriter.getFilename
      rw [if_pos (show ¬ (0 : W32) = 4294967295 by decide)]
      unfold SplitWriter.openFile SplitWriter.stat
      simp only [e2, sio_other _ _ hs, lookup_none disk _ (fun f hf => (hd f hf).2), Option.map_none, Writer.openNew]
    · exact Busy.start codec std compress {} _ ⟨rfl, rfl, rfl, rfl⟩ rfl
    · intro he
      have := congrArg List.length he
      simp [str] at this
    · exact fun f hf => (hd f hf).1
  obtain ⟨s0, o1, o2, o3, o4⟩ := hopen
  obtain ⟨s1, s2, bytes, r1, r2, r3, -⟩ := blind_loop hcodec ps hps.puts [] s0 o2 (runsClose_of _ hps.runs) hn
  refine ⟨s2, bytes, ?_, by rw [r3, o3, o4]⟩
  unfold splitSession
  rw [o1]
  simp only
  rw [r1]
  simp only
  rw [r2]

/-- **C54** fails if a split writer is used again after a session that needed only one file: whatever name is given (also another one, for which there are no files), `open`
throws an exception, because it tries to create the file of the first session again. -/
theorem C54_fails_for_second_open (codec : Codec) (hcodec : Lossless codec) (std : Std Pid) (compress : Bool) (limit : Int) (base : Str) (hb : base ≠ []) (hbl : base.length < 2 ^ 32 - 2)
    (disk : List (Str × List Byte)) (hd : ∀ f ∈ disk, ∀ n, ¬ IsPart base n f.1) (ps : List Put) (hps : Session.Ok codec std ⟨compress, ps⟩)
    (hn : ps.length < 2 ^ 27) (hone : (distribute (bytesWith codec std compress) limit [] ps).length = 1)
    (base2 : Str) (hb2 : base2 ≠ []) (hbl2 : base2.length < 2 ^ 32 - 2) :
    ∃ s, splitSession codec std compress { maxBytes := limit, disk := disk } (base ++ str ".slcio") ps = .ok s ∧
      (s.open (base2 ++ str ".slcio")).1 = .error .ioException := by
  obtain ⟨s0, h1, h2⟩ := open_first (codec := codec) (std := std) (compress := compress) limit base hb hbl disk
    (fun f hf he => hd f hf 0 (by rw [he]; exact partName_part base 0))
  obtain ⟨s1, s2, files, r1, r2, r3, r4, r5, r6, r7, r8, r9⟩ := split_loop hcodec ps hps.puts disk 0 [] s0 h2 (runsClose_of _ hps.runs) hn (by omega)
    (fun f hf j _ he => hd f hf j (by rw [he]; exact partName_part base j))
  have hlen : files.length = 1 := by rw [r5.1, hone]
  rw [hlen] at r4 r7 r8
  refine ⟨s2, ?_, ?_⟩
  · unfold splitSession
    rw [h1]
    simp only
    rw [r1]
    simp only
    rw [r2]
  · unfold SplitWriter.open
    have e : str ".slcio" = [46, 115, 108, 99, 105, 111] := by decide
    rw [e, setBase_ok _ base2 115 (by decide) hb2 hbl2]
    simp only
    unfold SplitWriter.getFilename
    rw [if_neg (by simp only [r7]; decide)]
    have hmem : partName base 0 ∈ s2.disk.map (·.1) := by
      rw [r3, List.map_append, r4]
      exact List.mem_append_right _ (List.mem_cons_self ..)
    have hstat : ∃ n, s2.disk.lookup (partName base 0) = some n := by
      cases hx : s2.disk.lookup (partName base 0) with
      | some n => exact ⟨n, rfl⟩
      | none => exact absurd hmem (lookup_none_mem _ _ hx)
    obtain ⟨b, hb⟩ := hstat
    have e2 : getSIOFileName (partName base 0) = partName base 0 := sio_suffix _
    unfold SplitWriter.openFile SplitWriter.stat
    simp only [r6, r8, e2, hb, Option.map_some]

/-! ## Concrete cases -/

/-- What is written in the last of the sample sessions: two events and a run header. -/
def splitPutsSample : List Put := [.event { run := 3, evt := 9 } tinyCols ([], []), .run (runHeaderOf 4) [1], .event { run := 4, evt := 0 } [] ([], [])]

theorem splitSample_ok : Session.Ok sampleCfg.codec sampleCfg.std ⟨true, splitPutsSample⟩ := sampleSessions_ok.each _ (by simp [sampleSessions, splitPutsSample])

theorem splitSample_loadable : Loadable sampleCfg splitPutsSample :=
  fun p hp => sampleSessions_loadable p (by simp only [allPuts, sampleSessions, splitPutsSample, List.flatMap_cons, List.mem_append] at hp ⊢; exact .inr (.inr (.inl hp)))

/-- With a limit of 400 bytes there are two files: the first event does not fill the first one. -/
example : (distribute (bytesWith idCodec ieee true) 400 [] splitPutsSample).map List.length = [2, 1] := by decide +kernel

example : ∃ s files, splitSession idCodec ieee true { maxBytes := 400, disk := [(str "run.5.slcio", [1]), (str "run.slcio", [2])] } (str "run.slcio") splitPutsSample = .ok s ∧
    s.disk = [(str "run.5.slcio", [1]), (str "run.slcio", [2])] ++ files ∧ files.length = 2 ∧ ∀ gs, ∃ r, Reader.openFiles sampleCfg false files = (.ok (), r) ∧
    gets sampleCfg gs r = .ok (serve sampleCfg gs (items ((files.map (·.1)).zip (distribute (bytesWith idCodec ieee true) 400 [] splitPutsSample)))) := by
  have hfree : ∀ f ∈ [(str "run.5.slcio", [(1 : Byte)]), (str "run.slcio", [2])], ∀ n, ¬ IsPart (str "run") n f.1 := by
    intro f hf n hp
    obtain ⟨d, h1, h2⟩ := hp
    have hl := h1.three
    have h3 := congrArg List.length h2
    simp only [List.mem_cons, List.not_mem_nil, or_false] at hf
    rcases hf with rfl | rfl
    · simp [str] at h3; omega
    · simp [str] at h3
  obtain ⟨s, files, h1, h2, h3, -, -, h4, -⟩ := C54_split_partial sampleCfg idCodec_lossless true 400 (str "run") (by decide) (by decide) _ hfree splitPutsSample
    splitSample_ok (by decide) splitSample_loadable
  refine ⟨s, files, h1, h2, ?_, h4⟩
  rw [h3]
  decide +kernel

/-- With the extension ".xlcio" there is one file, although the limit is 0. -/
example : ∃ s bytes, splitSession idCodec ieee true { maxBytes := 0 } (str "run.xlcio") splitPutsSample = .ok s ∧ s.disk = [(str "run.000.xlcio.slcio", bytes)] := by
  obtain ⟨s, bytes, h1, h2⟩ := C54_fails_for_other_extension idCodec idCodec_lossless ieee true 0 (by decide) (str "run") (by decide) (by decide) 120 (by decide) (by decide) []
    (by simp) splitPutsSample splitSample_ok (by decide)
  exact ⟨s, bytes, h1, h2⟩

example : ∃ s, splitSession idCodec ieee true { maxBytes := 2000000 } (str "run.slcio") splitPutsSample = .ok s ∧ (s.open (str "other.slcio")).1 = .error .ioException :=
  C54_fails_for_second_open idCodec idCodec_lossless ieee true 2000000 (str "run") (by decide) (by decide) [] (by simp) splitPutsSample splitSample_ok (by decide)
    (by decide +kernel) (str "other") (by decide) (by decide)

end Props
