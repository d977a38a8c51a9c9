import Verif.Util.SioDumpLemmas
/-
C114: the listing of a file shows the records and blocks that are in it.
-/
namespace Props
open Sio Lcio Spec Util

theorem infosFrom_drop (n : Nat) (rs : List Rec) (p : Nat) : (infosFrom p rs).drop n = infosFrom (p + (fileOf (rs.take n)).length) (rs.drop n) := by
  induction n generalizing rs p with
  | zero => simp [fileOf]
  | succ n ih => cases rs with
    | nil => simp [infosFrom]
    | cons r rs =>
      simp only [infosFrom, List.drop_succ_cons, List.take_succ_cons, fileOf_cons, List.length_append]
      rw [ih, Nat.add_assoc]

theorem allBlocks_drop (codec : Codec) (n : Nat) (rs : List Rec) (bs : List (List BlockInfo)) (h : AllBlocks codec rs bs) : AllBlocks codec (rs.drop n) (bs.drop n) := by
  induction n generalizing rs bs with
  | zero => simpa using h
  | succ n ih => cases rs with
    | nil => cases bs with
      | nil => exact h
      | cons b bs => exact h.elim
    | cons r rs => cases bs with
      | nil => exact h.elim
      | cons b bs => exact ih rs bs h.2

theorem allBlocks_length (codec : Codec) (rs : List Rec) (bs : List (List BlockInfo)) (h : AllBlocks codec rs bs) : bs.length = rs.length := by
  induction rs generalizing bs with
  | nil => cases bs with
    | nil => rfl
    | cons b bs => exact h.elim
  | cons r rs ih => cases bs with
    | nil => exact h.elim
    | cons b bs => simp [ih bs h.2]

theorem shown_zip (detailed : Bool) (is : List RecordInfo) (bs : List (List BlockInfo)) (n : Nat) :
    shown detailed (is.take n) bs = (((is.zip bs).take n).flatMap fun x => shownAs detailed x.2 x.1) := by
  induction is generalizing bs n with
  | nil => simp [shown]
  | cons i is ih =>
    cases n with
    | zero => simp [shown]
    | succ n => cases bs with
      | nil => simp [shown]
      | cons b bs => simp only [List.take_succ_cons, List.zip_cons_cons, List.flatMap_cons, shown, ih]

theorem dumpRecords_eq (codec : Codec) (rs : List Rec) (hr : ∀ r ∈ rs, r.Ok) (bss : List (List BlockInfo)) (detailed : Bool)
    (hb : detailed = true → AllBlocks codec rs bss) (hlen : bss.length = rs.length) (pre : List Byte) (skip count fuel : Nat) (hf : rs.length < fuel)
    (hsmall : rs.length < 2 ^ 32 ∨ count < 2 ^ 32) :
    dumpRecords codec fuel (ready (pre ++ fileOf rs) pre.length) skip count detailed =
      ((if rs.length < skip ∨ detailed = true then [] else [.rule, .recordTitles, .rule]) ++
        ((((infosFrom pre.length rs).zip bss).drop skip).take count).flatMap (fun x => shownAs detailed x.2 x.1), .ok ()) := by
  have hinf : ∀ (q : Nat) (l : List Rec), (infosFrom q l).length = l.length := by
    intro q l; induction l generalizing q with
    | nil => rfl
    | cons r l ih => simp [infosFrom, ih]
  by_cases hskip : rs.length < skip
  · have h := C18_skip_n_partial skip (by omega) rs hr pre fuel hf
    rw [if_neg (by omega)] at h
    unfold dumpRecords
    rw [if_pos (by omega : skip > 0)]
    rcases hx : skipNRecords fuel skip (ready (pre ++ fileOf rs) pre.length) with ⟨a, b⟩
    have ha : a = .error .eof := by
      have h5 := congrArg Prod.fst hx
      exact h5.symm.trans h
    subst ha
    simp only [hskip, true_or, if_true, dumpEnd]
    rw [List.drop_of_length_le (by simp [hinf]; omega)]
    simp
  · have hs : (if skip > 0 then skipNRecords fuel skip (ready (pre ++ fileOf rs) pre.length) else (.ok (), ready (pre ++ fileOf rs) pre.length)) =
        (.ok (), ready ((pre ++ fileOf (rs.take skip)) ++ fileOf (rs.drop skip)) (pre ++ fileOf (rs.take skip)).length) := by
      have hsplit : pre ++ fileOf rs = (pre ++ fileOf (rs.take skip)) ++ fileOf (rs.drop skip) := by
        rw [List.append_assoc, ← fileOf_append, List.take_append_drop]
      by_cases h0 : skip > 0
      · rw [if_pos h0, ← hsplit]
        have h := C18_skip_n_partial skip h0 rs hr pre fuel hf
        rw [if_pos (by omega)] at h
        exact h
      · rw [if_neg h0]
        have : skip = 0 := by omega
        subst this
        simp [fileOf]
    unfold dumpRecords
    rw [hs]
    obtain ⟨e, he, he2⟩ := dumpLoop_eq codec count detailed (rs.drop skip) (fun r h => hr r (List.mem_of_mem_drop h)) (bss.drop skip)
      (fun hd => allBlocks_drop codec skip rs bss (hb hd)) (by simp [hlen]) (pre ++ fileOf (rs.take skip)) (pre ++ fileOf (rs.take skip)).length fuel 0 rfl
      (zeros maxRecordInfoLen) (zeros 1048576) (by simp; omega) (by omega) (by
        rcases Nat.lt_or_ge count (2 ^ 32) with h | h
        · exact Or.inl h
        · right; rcases hsmall with h2 | h2
          · simp only [List.length_drop]; omega
          · omega)
    simp only [he, he2, Nat.sub_zero]
    rw [shown_zip, List.length_append, ← infosFrom_drop, List.zip, ← List.drop_zipWith]
    rw [show ∀ (a : List RecordInfo) (b : List (List BlockInfo)), List.zipWith Prod.mk a b = a.zip b from fun _ _ => rfl]
    cases detailed <;> simp [hskip]

/-- **C114** for the short listing. A file holds any records, behind any bytes. From there, `dump_records` with any numbers of records to skip and to
show prints one line for each of them that exists, in the order of the file, with the name, the positions of the begin and the end, the options, and the lengths of the
record, below one head of the table, and returns normally. (If more records are to be skipped than exist, nothing is printed.) -/
theorem C114_records (codec : Codec) (rs : List Rec) (hr : ∀ r ∈ rs, r.Ok) (pre : List Byte) (skip count fuel : Nat) (hf : rs.length < fuel)
    (hsmall : rs.length < 2 ^ 32 ∨ count < 2 ^ 32) :
    dumpRecords codec fuel { bytes := pre ++ fileOf rs, pos := pre.length } skip count false =
      ((if rs.length < skip then [] else [.rule, .recordTitles, .rule]) ++ (((infosFrom pre.length rs).drop skip).take count).map .record, .ok ()) := by
  have h := dumpRecords_eq codec rs hr (rs.map fun _ => []) false (fun h => nomatch h) (by simp) pre skip count fuel hf hsmall
  have hz : ∀ (is : List RecordInfo) (bs : List (List BlockInfo)), bs.length = is.length → ∀ n m, (((is.zip bs).drop n).take m).flatMap (fun x => shownAs false x.2 x.1) = ((is.drop n).take m).map DumpLine.record := by
    intro is bs hl n m
    have : is = (is.zip bs).map Prod.fst := by rw [List.map_fst_zip]; omega
    conv => rhs; rw [this]
    rw [← List.map_drop, ← List.map_take, List.map_map]
    generalize ((is.zip bs).drop n).take m = l
    induction l with
    | nil => rfl
    | cons x l ih => simp only [List.flatMap_cons, List.map_cons, ih]; rfl
  rw [hz _ _ (by
    rw [List.length_map]
    generalize pre.length = q
    clear h hr hf hsmall
    induction rs generalizing q with
    | nil => rfl
    | cons r rs ih => simp [infosFrom, ← ih])] at h
  simpa using h

/-- The record that is written for a job has the blocks of the job. -/
theorem writeJob_blocks (codec : Codec) (hlossless : ∀ data comp, codec.compress data = .ok comp → codec.uncompress comp data.length = .ok data)
    (buf B : List Byte) (j : Job) (hj : j.Ok codec) :
    ∃ r : Rec, r.Ok ∧ writeJob codec buf { bytes := B, pos := B.length } j =
      .ok (r.info B.length, r.header ++ r.data, { bytes := B ++ r.wire, pos := (B ++ r.wire).length }) ∧ HasBlocks codec r (directory 0 j.blocks) := by
  obtain ⟨r, h1, h2, -, h4⟩ := writeJob_eq codec buf B j hj
  refine ⟨r, h1, h2, ?_⟩
  obtain ⟨data, num, τ, -, -, hl, hw⟩ := writeRecord_rec j.name buf j.blocks j.opts hj.writable
  have hok := writeRecord_Ok j.name j.blocks j.opts data hj.writable hl
  obtain ⟨info, rec, d1, d2⟩ := C12_directory j.name buf j.blocks j.opts hj.writable
  rw [hw] at d1
  simp only [Except.ok.injEq, Prod.mk.injEq] at d1
  obtain ⟨e1, e2⟩ := d1
  subst e1 e2
  simp only at d2
  rw [List.drop_left' (header_length ⟨j.name, setCompression j.opts false, dataLen j.blocks, data⟩)] at d2
  have hb := headerLen_bounds j.name hok.name
  have hal := dataLen_align j.blocks hj.writable.blocks
  cases hc : j.compress with
  | false =>
    have hh := header_length ⟨j.name, setCompression j.opts false, dataLen j.blocks, data⟩
    have hd : r.header ++ r.data = (⟨j.name, setCompression j.opts false, dataLen j.blocks, data⟩ : Rec).header ++ data ∧ (r.info B.length).headerLength = headerLen j.name := by
      unfold writeJob at h2
      rw [hw] at h2
      simp only [bind, Except.bind, hc, Bool.false_eq_true, if_false, writeRecordTo_eq, pure, Except.pure, Except.ok.injEq, Prod.mk.injEq] at h2
      refine ⟨h2.2.1.symm, ?_⟩
      rw [← h2.1]
    refine ⟨r.data, ?_, ?_⟩
    · rw [h4, hc, isCompressed_set]; rfl
    · have : r.data = data := by
        have h5 := congrArg (List.drop (headerLen j.name)) hd.1
        rw [List.drop_left' (by rw [header_length]; exact hd.2), List.drop_left' hh] at h5
        exact h5
      rw [this]; exact d2
  | true =>
    obtain ⟨comp, hcomp, hcl⟩ := hj.compressible hc data hl
    obtain ⟨rec', g1, g2⟩ := compressRecord_eq codec ⟨j.name, setCompression j.opts false, dataLen j.blocks, data⟩ hok
      { headerLength := headerLen j.name, options := setCompression j.opts false, dataLength := dataLen j.blocks,
               uncompressedLength := dataLen j.blocks, name := j.name } comp rfl rfl hcomp (by omega)
    have hss : setCompression (setCompression j.opts false) true = setCompression j.opts true := by
      unfold setCompression
      ext i hi
      simp
    simp only [hss] at g1 g2
    have hd : r.header ++ r.data = (⟨j.name, setCompression j.opts true, dataLen j.blocks, comp⟩ : Rec).header ++ comp ∧ (r.info B.length).headerLength = headerLen j.name ∧
        (r.info B.length).uncompressedLength = dataLen j.blocks := by
      unfold writeJob at h2
      rw [hw] at h2
      simp only [bind, Except.bind, hc, if_true, g1, g2, writeRecordTo2_eq, pure, Except.pure, Except.ok.injEq, Prod.mk.injEq] at h2
      refine ⟨h2.2.1.symm, ?_, ?_⟩
      · rw [← h2.1]
      · rw [← h2.1]
    have hdata : r.data = comp := by
      have h5 := congrArg (List.drop (headerLen j.name)) hd.1
      rw [List.drop_left' (by rw [header_length]; exact hd.2.1), List.drop_left' (header_length ⟨j.name, setCompression j.opts true, dataLen j.blocks, comp⟩)] at h5
      exact h5
    have hfull : r.full = data.length := by rw [hl]; exact hd.2.2
    refine ⟨data, ?_, d2⟩
    rw [h4, hc, isCompressed_set, hdata, hfull]
    exact hlossless data comp hcomp

theorem writeAll_blocks (codec : Codec) (hlossless : ∀ data comp, codec.compress data = .ok comp → codec.uncompress comp data.length = .ok data)
    (buf B : List Byte) (js : List Job) (hj : ∀ j ∈ js, j.Ok codec) :
    ∃ rs : List Rec, (∀ r ∈ rs, r.Ok) ∧ rs.length = js.length ∧ writeAll codec buf { bytes := B, pos := B.length } js =
      .ok ((infosFrom B.length rs).zip (rs.map fun r => r.header ++ r.data), { bytes := B ++ fileOf rs, pos := (B ++ fileOf rs).length }) ∧
      AllBlocks codec rs (js.map fun j => directory 0 j.blocks) := by
  induction js generalizing B with
  | nil => exact ⟨[], (by simp), rfl, (by simp [writeAll, fileOf_nil, infosFrom]), trivial⟩
  | cons j js ih =>
    obtain ⟨r, h1, h2, h3⟩ := writeJob_blocks codec hlossless buf B j (hj j (by simp))
    obtain ⟨rs, g1, g2, g3, g4⟩ := ih (B ++ r.wire) (fun j' h' => hj j' (by simp [h']))
    refine ⟨r :: rs, ?_, by simp [g2], ?_, ⟨h3, g4⟩⟩
    · intro x hx
      rcases List.mem_cons.1 hx with rfl | hx
      · exact h1
      · exact g1 x hx
    · unfold writeAll
      simp only [bind, Except.bind, h2]
      rw [g3]
      simp only [pure, Except.pure, infosFrom, List.map_cons, List.zip_cons_cons, fileOf_cons, List.append_assoc, List.length_append]

/-- **C114** for the detailed listing. Any records, some of them compressed with a codec that is lossless, are written one after the other behind any bytes. From
there, `dump_records` with any numbers of records to skip and to show prints, for each of these records in the order in which they were written, a line
with the description that writing returned, and then one line for each block that was written, in order, with its name, version, position and length, and returns normally. -/
theorem C114_blocks (codec : Codec) (hlossless : ∀ data comp, codec.compress data = .ok comp → codec.uncompress comp data.length = .ok data)
    (buf pre : List Byte) (js : List Job) (hj : ∀ j ∈ js, j.Ok codec) (skip count fuel : Nat) (hf : js.length < fuel) (hsmall : js.length < 2 ^ 32 ∨ count < 2 ^ 32) :
    ∃ recs out, writeAll codec buf { bytes := pre, pos := pre.length } js = .ok (recs, out) ∧
      recs.length = js.length ∧
      dumpRecords codec fuel { bytes := out.bytes, pos := pre.length } skip count true =
        ((((recs.zip js).drop skip).take count).flatMap (fun x =>
          [.rule, .recordTitles, .record x.1.1, .rule, .blockTitles, .rule] ++ (directory 0 x.2.blocks).map .block ++ [.blank]), .ok ()) := by
  obtain ⟨rs, h1, h2, h3, h4⟩ := writeAll_blocks codec hlossless buf pre js hj
  have hinf : ∀ (q : Nat) (l : List Rec), (infosFrom q l).length = l.length := by
    intro q l; induction l generalizing q with
    | nil => rfl
    | cons r l ih => simp [infosFrom, ih]
  refine ⟨_, _, h3, by simp [hinf, h2], ?_⟩
  have h := dumpRecords_eq codec rs h1 _ true (fun _ => h4) (by simp [h2]) pre skip count fuel (by omega) (by rw [h2]; exact hsmall)
  have hz : (infosFrom pre.length rs).zip (js.map fun j => directory 0 j.blocks) =
      ((((infosFrom pre.length rs).zip (rs.map fun r => r.header ++ r.data)).zip js).map fun x => (x.1.1, directory 0 x.2.blocks)) := by
    clear h h1 h3 h4 hj hf hsmall
    generalize pre.length = q
    induction rs generalizing js q with
    | nil => cases js <;> simp [infosFrom]
    | cons r rs ih => cases js with
      | nil => simp
      | cons j js =>
        simp only [infosFrom, List.map_cons, List.zip_cons_cons, List.cons.injEq, true_and]
        exact ih js (by simpa using h2) _
  rw [hz, ← List.map_drop, ← List.map_take, List.flatMap_map] at h
  simpa [shownAs] using h

theorem toyCodec_lossless : ∀ data comp, toyCodec.compress data = .ok comp → toyCodec.uncompress comp data.length = .ok data := by
  intro data comp h
  simp only [toyCodec, Except.ok.injEq] at h
  subst h
  simp [toyCodec]

/-- The hypotheses are met by a file with a compressed record between two that are not; the two last ones are shown. -/
example : (∀ j ∈ threeJobs, j.Ok toyCodec) ∧ (∀ data comp, toyCodec.compress data = .ok comp → toyCodec.uncompress comp data.length = .ok data) ∧
    (writeAll toyCodec [] { bytes := [] } threeJobs).map (fun x => (((x.1.zip threeJobs).drop 1).take 7).flatMap (fun x =>
          [DumpLine.rule, .recordTitles, .record x.1.1, .rule, .blockTitles, .rule] ++ (directory 0 x.2.blocks).map .block ++ [.blank])) =
      .ok [.rule, .recordTitles, .record ⟨92, 188, 28, 1, 65, 64, str "rec"⟩, .rule, .blockTitles, .rule,
          .block ⟨0, 36, 20, 0x10000, 16, str "a"⟩, .block ⟨36, 64, 20, 7, 8, str "bc"⟩, .blank,
          .rule, .recordTitles, .record ⟨188, 220, 32, 4, 0, 0, str "other"⟩, .rule, .blockTitles, .rule, .blank] := ⟨threeJobs_ok, toyCodec_lossless, by decide +kernel⟩

example : (DumpLine.record ⟨92, 188, 28, 1, 65, 64, str "rec"⟩).text =
    str "rec                            | 92              | 188             | 1            | 28         | 65 (64)        " := by decide +kernel

/-- **C114** is not true of files that were cut: the short listing shows a record whose data are not in the file as if they were. -/
theorem C114_fails_truncated : (dumpRecords toyCodec 3 { bytes := (fileOf fourRecords).take 28 } 0 9 false).1.map DumpLine.text =
    [.rule, .recordTitles, .rule, .record ((fourRecords.headD ⟨[], 0, 0, []⟩).info 0)].map DumpLine.text ∧
    (dumpRecords toyCodec 3 { bytes := (fileOf fourRecords).take 28 } 0 9 false).2.isOk = true ∧
    (readRecord { bytes := (fileOf fourRecords).take 28 } []).1.isOk = false := by
  decide +kernel

end Props
