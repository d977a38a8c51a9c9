import Verif.Util.MergeNames
import Verif.Spec.MergeNames
import Verif.Util.SplitLemmas
import Verif.Props.Merge
/-
C122: merging files and the files on the disk.
-/
namespace Props
open Sio Spec Lcio Util

theorem rfind_at (pat : Str) : ∀ (s : Str) (i : Nat), rfind pat s = some i → pat <+: s.drop i := by
  intro s
  induction s with
  | nil =>
    intro i h
    simp only [rfind] at h
    split at h
    · rename_i hp
      rw [List.isEmpty_iff.1 hp]
      exact List.nil_prefix
    · cases h
  | cons c s ih =>
    intro i h
    simp only [rfind] at h
    split at h
    · rename_i j hj; cases h; exact ih j hj
    · split at h
      · cases h; rename_i hp; exact List.isPrefixOf_iff_prefix.1 hp
      · cases h

/-- The name of the file that is written. -/
theorem output_name (given name : Str) (h : IsOutput given name) : getSIOFileName given = name := by
  rcases h with ⟨⟨base, rfl⟩, rfl⟩ | ⟨h, rfl⟩
  · exact sio_suffix base
  · unfold getSIOFileName
    split
    · rfl
    · rename_i i hi
      rw [if_neg]
      · rfl
      · intro he
        obtain ⟨t, ht⟩ := rfind_at _ _ _ hi
        have hlen := congrArg List.length ht
        rw [List.length_append, List.length_drop] at hlen
        have ht0 : t = [] := List.length_eq_zero_iff.1 (by omega)
        rw [ht0, List.append_nil] at ht
        exact h ⟨given.take i, by rw [show str ".slcio" = fileExtension from rfl, ht, List.take_append_drop]⟩

theorem exists_all (disk : Str → Option (List Byte)) (files : List (Str × List Byte)) (h : ∀ f ∈ files, disk f.1 = some f.2) (hne : files ≠ []) :
    ((files.map (·.1)).isEmpty || (files.map (·.1)).any fun n => (disk n).isNone) = false := by
  rw [Bool.or_eq_false_iff]
  refine ⟨?_, ?_⟩
  · cases files with
    | nil => exact absurd rfl hne
    | cons f fs => rfl
  · rw [Bool.eq_false_iff]
    intro ha
    obtain ⟨n, hn, hx⟩ := List.any_eq_true.1 ha
    obtain ⟨f, hf, rfl⟩ := List.mem_map.1 hn
    rw [h f hf] at hx
    cases hx

/-- The content of the files that are read, after the new file was made empty. -/
theorem read_emptied (disk : Str → Option (List Byte)) (name : Str) (files : List (Str × List Byte)) (h : ∀ f ∈ files, disk f.1 = some f.2) (hn : name ∉ files.map (·.1)) :
    ((files.map (·.1)).map fun n => (n, (setFile disk name [] n).getD [])) = files := by
  rw [List.map_map]
  conv => rhs; rw [← List.map_id files]
  apply List.map_congr_left
  intro f hf
  have : f.1 ≠ name := fun e => hn (e ▸ List.mem_map_of_mem hf)
  simp only [Function.comp, setFile, if_neg this, h f hf, Option.getD_some, id]

/-- **C122** (partial). The files with some names, which exist and were each written in any number of sessions, are merged with `lcio_merge_files`. The name of the new file (which gets the extension `.slcio` if it does not have it) is not one
of them. The program ends normally. Afterwards all files are as they were, except for the new one; also if it existed, it has now what is in the files that were merged (C71) and nothing else. -/
theorem C122_partial (cfg : RConfig) (hcodec : Lossless cfg.codec) (hsort : SortLaw cfg.std)
    (hflt : ∀ x, viaFloat cfg.std (viaFloat cfg.std x) = viaFloat cfg.std x) (files : List (Str × List Byte)) (contents : List (Str × List Session))
    (h : FilesHold cfg.codec cfg.std files contents) (hne : files ≠ [])
    (hst : ∀ x ∈ contentsOf contents, ∀ h cols buf, x.2 = .event h cols buf →
      Storable cfg.std cfg.ignoreNull [] cfg.wanted h cols ∧ Copyable (wantedCols cfg.wanted (storedCols [] cols)))
    (compress : Bool) (limit : Nat) (hz : compress = true → CompressesUpTo cfg.codec limit)
    (hr : ∀ x ∈ contentsOf contents, Rewritable limit cfg.std x.1 x.2) (hcount : (contentsOf contents).length < 2 ^ 27)
    (hruns : ∀ x ∈ contentsOf contents, ∀ y ∈ contentsOf contents,
      -2 ^ 31 ≤ x.2.key.run.toInt - y.2.key.run.toInt ∧ x.2.key.run.toInt - y.2.key.run.toInt < 2 ^ 31) (bufs : Nat → Str × Str)
    (disk : Str → Option (List Byte)) (hdisk : ∀ f ∈ files, disk f.1 = some f.2) (given name : Str) (hname : IsOutput given name) (hnot : name ∉ files.map (·.1)) :
    ∃ disk' bytes r r' ds ds', mergeByName cfg compress bufs disk given (files.map (·.1)) = some (.ended .done, disk') ∧
      (∀ n, n ≠ name → disk' n = disk n) ∧ disk' name = some bytes ∧
      Reader.openFiles cfg false files = (.ok (), r) ∧ (∀ gs, gets cfg gs r = .ok (inTurn gs ds)) ∧
      Reader.openFiles { cfg with wanted := [] } false [(name, bytes)] = (.ok (), r') ∧ (∀ gs, gets { cfg with wanted := [] } gs r' = .ok (inTurn gs ds')) ∧
      All2 (CopyIn name) ds ds' := by
  obtain ⟨bytes, r, r', ds, ds', a1, a2, a3, a4, a5, a6⟩ := C71_merge_partial cfg hcodec hsort hflt files contents h hne hst compress limit hz hr hcount hruns bufs name
  refine ⟨setFile (setFile disk name []) name bytes, bytes, r, r', ds, ds', ?_, fun n hn => by simp only [setFile, if_neg hn], by simp only [setFile, if_true], a2, a3, a4, a5, a6⟩
  unfold mergeByName
  rw [exists_all disk files hdisk hne, output_name given name hname]
  simp only [Bool.false_eq_true, if_false]
  rw [if_neg (fun hm => hnot (List.mem_of_mem_tail hm)), read_emptied disk name files hdisk hnot, a1]
  rfl

/-- **C122**: if no file is given, or one of the files does not exist, the program ends with status 1, and no file is changed. -/
theorem C122_missing (cfg : RConfig) (compress : Bool) (bufs : Nat → Str × Str) (disk : Str → Option (List Byte)) (given : Str) (ins : List Str) (h : ins = [] ∨ ∃ n ∈ ins, disk n = none) :
    mergeByName cfg compress bufs disk given ins = some (.exit1, disk) := by
  unfold mergeByName
  rw [if_pos]
  rw [Bool.or_eq_true]
  rcases h with rfl | ⟨n, hn, hx⟩
  · exact .inl rfl
  · exact .inr (List.any_eq_true.2 ⟨n, hn, by rw [hx]; rfl⟩)

/-- **C122** fails if the new file is the first of the files to be merged. Whatever is in it is lost, also if the other files (perhaps none) are merged correctly: the file has then only what is in the other files. The program ends normally,
without a message. -/
theorem C122_fails_first (cfg : RConfig) (hcodec : Lossless cfg.codec) (hsort : SortLaw cfg.std)
    (hflt : ∀ x, viaFloat cfg.std (viaFloat cfg.std x) = viaFloat cfg.std x) (files : List (Str × List Byte)) (contents : List (Str × List Session))
    (h : FilesHold cfg.codec cfg.std files contents)
    (hst : ∀ x ∈ contentsOf contents, ∀ h cols buf, x.2 = .event h cols buf →
      Storable cfg.std cfg.ignoreNull [] cfg.wanted h cols ∧ Copyable (wantedCols cfg.wanted (storedCols [] cols)))
    (compress : Bool) (limit : Nat) (hz : compress = true → CompressesUpTo cfg.codec limit)
    (hr : ∀ x ∈ contentsOf contents, Rewritable limit cfg.std x.1 x.2) (hcount : (contentsOf contents).length < 2 ^ 27)
    (hruns : ∀ x ∈ contentsOf contents, ∀ y ∈ contentsOf contents,
      -2 ^ 31 ≤ x.2.key.run.toInt - y.2.key.run.toInt ∧ x.2.key.run.toInt - y.2.key.run.toInt < 2 ^ 31) (bufs : Nat → Str × Str)
    (disk : Str → Option (List Byte)) (hdisk : ∀ f ∈ files, disk f.1 = some f.2) (given name : Str) (hname : IsOutput given name) (hnot : name ∉ files.map (·.1)) (hfirst : disk name ≠ none) :
    ∃ disk' bytes r' ds ds', mergeByName cfg compress bufs disk given (name :: files.map (·.1)) = some (.ended .done, disk') ∧ disk' name = some bytes ∧
      All2 (fun x d => delivery cfg x.1 x.2 = some d) (contentsOf contents) ds ∧
      Reader.openFiles { cfg with wanted := [] } false [(name, bytes)] = (.ok (), r') ∧ (∀ gs, gets { cfg with wanted := [] } gs r' = .ok (inTurn gs ds')) ∧
      All2 (CopyIn name) ds ds' ∧ (files = [] → bytes = []) := by
  have h' : FilesHold cfg.codec cfg.std ((name, []) :: files) ((name, [⟨false, []⟩]) :: contents) := Lcio.All2.cons ⟨rfl, rfl, .inr ⟨false, rfl⟩⟩ h
  have hc : contentsOf ((name, [⟨false, []⟩]) :: contents) = contentsOf contents := by simp [contentsOf, items, allPuts]
  obtain ⟨bytes, r', ds, ds', a1, a2, a3, a4, a5⟩ := rewritten_file cfg hcodec hsort hflt _ hst compress limit hz hr hcount hruns bufs name
  have hl : ∀ c ∈ (name, [⟨false, []⟩]) :: contents, Loadable cfg (allPuts c.2) := by
    intro c hc p hp file
    rcases List.mem_cons.1 hc with rfl | hc
    · simp [allPuts] at hp
    have : (c.1, p) ∈ contentsOf contents := by
      unfold contentsOf items
      exact List.mem_flatMap.2 ⟨_, List.mem_map_of_mem hc, List.mem_map.2 ⟨p, hp, rfl⟩⟩
    cases p with
    | run h buf => simp [delivery, Put.loadedRun]
    | event h cols buf =>
      obtain ⟨h', L, T, e1, -⟩ := event_loaded cfg.std cfg.ignoreNull [] cfg.wanted h cols (hst _ this h cols buf rfl).1 buf 0 1 (by omega)
      simp only [delivery, e1]
      simp
  obtain ⟨r, log, r2, c1, c2, c3⟩ := C33_everything_partial cfg hcodec _ _ h' (by simp) hl 1 (Or.inl (Nat.le_refl 1))
  rw [hc] at c3
  refine ⟨setFile (setFile disk name []) name bytes, bytes, r', ds, ds', ?_, by simp only [setFile, if_true], a1, a3, a4, a5, ?_⟩
  · unfold mergeByName
    have hex : ((name :: files.map (·.1)).isEmpty || (name :: files.map (·.1)).any fun n => (disk n).isNone) = false := by
      cases hx : disk name with
      | none => exact absurd hx hfirst
      | some b =>
        have := exists_all disk ((name, b) :: files) (by
          intro f hf
          rcases List.mem_cons.1 hf with rfl | hf
          · exact hx
          · exact hdisk f hf) (by simp)
        simpa only [List.map_cons] using this
    rw [hex, output_name given name hname]
    simp only [Bool.false_eq_true, if_false]
    rw [if_neg (by simpa only [List.tail_cons] using hnot)]
    rw [List.map_cons, read_emptied disk name files hdisk hnot, show (setFile disk name [] name).getD [] = [] by simp [setFile]]
    unfold mergeFiles
    rw [c1]
    simp only []
    rw [c2]
    simp only []
    rw [c3, handed_single cfg _ _ a1, a2]
    rfl
  · rintro rfl
    obtain rfl : contents = [] := List.length_eq_zero_iff.1 h.1.symm
    obtain rfl : ds = [] := List.length_eq_zero_iff.1 a1.1.symm
    have e : rewriteAll cfg.codec cfg.std compress bufs [] = .ok (some []) := rfl
    rw [e] at a2
    injection a2 with a2
    injection a2 with a2
    exact a2.symm

/-- A file that exists is copied as by the other program. -/
theorem copyfix_merge (cfg : RConfig) (compress : Bool) (bufs : Nat → Str × Str) (disk : Str → Option (List Byte)) (inName out : Str) (h : disk inName ≠ none) :
    copyfixByName cfg compress bufs disk inName out = mergeByName cfg compress bufs disk out [inName] := by
  cases hx : disk inName with
  | none => exact absurd hx h
  | some b =>
    unfold copyfixByName mergeByName
    simp [hx]

/-- **C122** (partial), `copyfix`: a file that can be copied, whether it is complete or damaged (C71 says which files can be copied, and what is in the new one), is copied to another one. Afterwards all files are as they were, except for the new one,
which has just what is copied. There is a message exactly if the file could not be read to its end. -/
theorem C122_copyfix_partial (cfg : RConfig) (compress : Bool) (bufs : Nat → Str × Str) (disk : Str → Option (List Byte)) (inName : Str) (bytes : List Byte) (hin : disk inName = some bytes) (given name : Str)
    (hname : IsOutput given name) (hnot : name ≠ inName) (new : List Byte) (res : Except Err Unit) (h : mergeFiles cfg compress bufs [(inName, bytes)] = .ok (some new, res)) :
    ∃ ending disk', copyfixByName cfg compress bufs disk inName given = some (.ended ending, disk') ∧ (∀ n, n ≠ name → disk' n = disk n) ∧ disk' name = some new ∧
      (ending = .done ∧ res = .ok () ∨ ∃ e, ending = .message e ∧ res = .error e) := by
  have e : (setFile disk name [] inName).getD [] = bytes := by simp only [setFile, if_neg (Ne.symm hnot), hin, Option.getD_some]
  refine ⟨endOf (.ok ()) res, setFile (setFile disk name []) name new, ?_, fun n hn => by simp only [setFile, if_neg hn], by simp only [setFile, if_true], ?_⟩
  · unfold copyfixByName
    rw [hin]
    simp only
    rw [output_name given name hname, e, h]
    rfl
  · cases res with
    | ok u => exact .inl ⟨rfl, rfl⟩
    | error e => exact .inr ⟨e, rfl, rfl⟩

/-- **C122** fails for `copyfix` if the file does not exist: no file is changed, but the program ends with status 0, after a message. -/
theorem C122_fails_copyfix_missing (cfg : RConfig) (compress : Bool) (bufs : Nat → Str × Str) (disk : Str → Option (List Byte)) (inName given : Str) (h : disk inName = none) :
    copyfixByName cfg compress bufs disk inName given = some (.ended (.message .notOpen), disk) := by
  unfold copyfixByName
  rw [h]

/-- **C122** fails for `copyfix` with the same name twice: whatever is in the file, it is empty afterwards; the program ends with status 0, without a message. -/
theorem C122_fails_copyfix_same (cfg : RConfig) (hcodec : Lossless cfg.codec) (hsort : SortLaw cfg.std) (hflt : ∀ x, viaFloat cfg.std (viaFloat cfg.std x) = viaFloat cfg.std x)
    (bufs : Nat → Str × Str) (disk : Str → Option (List Byte)) (given name : Str) (hname : IsOutput given name) (h : disk name ≠ none) :
    ∃ disk', copyfixByName cfg false bufs disk name given = some (.ended .done, disk') ∧ disk' name = some [] := by
  obtain ⟨disk', b, r', ds, ds', h1, h2, -, -, -, -, h3⟩ := C122_fails_first cfg hcodec hsort hflt [] [] (Lcio.All2.nil _) (by simp [contentsOf, items])
    false (2 ^ 31) (by simp) (by simp [contentsOf, items]) (by simp [contentsOf, items]) (by simp [contentsOf, items]) bufs disk (by simp)
    given name hname (by simp) h
  rw [h3 rfl] at h2
  exact ⟨disk', (copyfix_merge cfg false bufs disk name given h).trans h1, h2⟩

/-! ### Cases -/


/-- The hypotheses of the first theorem are met by three files. The name that is given gets the extension. -/
example (bufs : Nat → Str × Str) : ∃ files : List (Str × List Byte), files.length = 3 ∧ ∀ disk : Str → Option (List Byte), (∀ f ∈ files, disk f.1 = some f.2) →
    ∃ disk' bytes, mergeByName sampleCfg true bufs disk (str "out") (files.map (·.1)) = some (.ended .done, disk') ∧ (∀ n, n ≠ str "out.slcio" → disk' n = disk n) ∧ disk' (str "out.slcio") = some bytes := by
  obtain ⟨bytes0, h⟩ := sampleFiles_hold
  refine ⟨[(str "f", bytes0), (str "g", []), (str "h", bytes0)], rfl, fun disk hdisk => ?_⟩
  obtain ⟨disk', bytes, r, r', ds, ds', h1, h2, h3, -⟩ := C122_partial sampleCfg idCodec_lossless ieee_sort viaFloat_twice _ _ h (by simp)
    (fun x hx => sample_copyable x.2 (sample_mergeable x hx).2) true (2 ^ 31) (fun _ => idCodec_compresses)
    (fun x hx => sample_rewritable x.1 (sample_mergeable x hx).1 x.2 (sample_mergeable x hx).2) (by decide)
    (fun x hx y hy => sample_runs x.2 (sample_mergeable x hx).2 y.2 (sample_mergeable y hy).2) bufs disk hdisk (str "out") (str "out.slcio")
    (.inr ⟨fun ⟨base, hb⟩ => by have := congrArg List.length hb; rw [List.length_append] at this; have e : (str "out").length = 3 := rfl; have e' : (str ".slcio").length = 6 := rfl; omega, rfl⟩)
    (by simp only [List.map_cons, List.map_nil]; decide)
  exact ⟨disk', bytes, h1, h2, h3⟩

/-- A file that is merged with itself as new file is empty afterwards. -/
example (bytes : List Byte) (bufs : Nat → Str × Str) : ∃ disk', mergeByName sampleCfg true bufs (fun n => if n = str "a.slcio" then some bytes else none) (str "a.slcio") [str "a.slcio"] = some (.ended .done, disk') ∧
    disk' (str "a.slcio") = some [] := by
  obtain ⟨disk', b, r', ds, ds', h1, h2, -, -, -, -, h3⟩ := C122_fails_first sampleCfg idCodec_lossless ieee_sort viaFloat_twice [] [] (Lcio.All2.nil _) (by simp [contentsOf, items])
    true (2 ^ 31) (fun _ => idCodec_compresses) (by simp [contentsOf, items]) (by simp [contentsOf, items]) (by simp [contentsOf, items]) bufs (fun n => if n = str "a.slcio" then some bytes else none) (by simp)
    (str "a.slcio") (str "a.slcio") (.inl ⟨⟨str "a", rfl⟩, rfl⟩) (by simp) (by simp)
  rw [h3 rfl] at h2
  exact ⟨disk', h1, h2⟩

/-- The hypotheses of the theorem for `copyfix` are met by a file with sample sessions that is not complete. -/
example (bufs : Nat → Str × Str) : ∃ old new, ∀ n, (old.getD []).length ≤ n → ∃ full ending disk', copyfixByName sampleCfg false bufs (fun x => if x = str "f" then some (crashed old new n) else none) (str "f") (str "out") =
    some (.ended ending, disk') ∧ disk' (str "f") = some (crashed old new n) ∧ disk' (str "out.slcio") = some full := by
  obtain ⟨w, old, new, h1, h2, h3⟩ := C71_fix_partial sampleCfg idCodec_lossless ieee_sort viaFloat_twice (sampleSessions.take 2)
    (sampleSessions.getLast (by simp [sampleSessions])) sampleSessions_ok (by simp [sampleSessions]) sample_copyable false (2 ^ 31) (by simp) (str "f") (str "out")
    (sample_rewritable (str "f") (by simp)) sample_runs bufs
  refine ⟨old, new, fun n hn => ?_⟩
  obtain ⟨m, m1, m2, -, full, res, r', ds, ds', c1, -⟩ := h3 n hn
  obtain ⟨ending, disk', d1, d2, d3, -⟩ := C122_copyfix_partial sampleCfg false bufs (fun x => if x = str "f" then some (crashed old new n) else none) (str "f") (crashed old new n) (by simp) (str "out") (str "out.slcio")
    (.inr ⟨fun ⟨base, hb⟩ => by have := congrArg List.length hb; rw [List.length_append] at this; have e : (str "out").length = 3 := rfl; have e' : (str ".slcio").length = 6 := rfl; omega, rfl⟩)
    (by decide) full res c1
  exact ⟨full, ending, disk', d1, by rw [d2 _ (by decide)]; simp, d3⟩

end Props
