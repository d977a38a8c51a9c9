import Verif.Sio.FileLemmas
/-
C14 - C20: records in files.
-/
namespace Props
open Sio Spec

/-- Two small blocks, with a pointer from the first to the second. -/
def twoBlocks : List WBlock := [⟨str "a", 0x10000, [.arr 4 [1, 2, 3], .ptr 500]⟩, ⟨str "bc", 7, [.tag 500, .arr 1 [9]]⟩]

theorem twoBlocks_writable : Writable (str "rec") twoBlocks := by
  refine ⟨by decide, ?_, by decide +kernel⟩
  intro b hb
  simp only [twoBlocks, List.mem_cons, List.not_mem_nil, or_false] at hb
  rcases hb with rfl | rfl <;> refine ⟨by decide, ?_, by decide +kernel⟩ <;>
    (intro i hi; simp only [List.mem_cons, List.not_mem_nil, or_false] at hi; rcases hi with rfl | rfl <;> simp [fits])

theorem mask_bits : ∀ i : Fin 32, i ≠ 0 → (4294967294#32)[i.val] = true := by decide

/-- **C14**. The buffer made by `write_record` starts with the bytes of a header that holds the header length, the marker, the
options with the compression bit cleared, twice the length of the data, and the name; the record info returned says the same.
When the buffer is written to a file (at any position, here after `pre`) reading the header there returns this
information and the range of the record in the file. -/
theorem C14_record_header (name buf : List Byte) (bs : List WBlock) (opts : W32) (hw : Writable name bs) :
    ∃ info rec, writeRecord name buf bs opts = .ok (info, rec) ∧
      info.headerLength = headerLen name ∧ info.dataLength = dataLen bs ∧ info.uncompressedLength = dataLen bs ∧
      info.name = name ∧ (∀ i, info.options.getLsbD i = (opts.getLsbD i && decide (i ≠ 0))) ∧
      rec.length = headerLen name + dataLen bs ∧
      rec.take (headerLen name) = bytesOf (headerItems name info.options (dataLen bs) (dataLen bs)) ∧
      ∀ pre post junk,
        (readRecordInfo { bytes := pre ++ rec ++ post, pos := pre.length } junk).1 =
          .ok { info with fileStart := pre.length, fileEnd := pre.length + rec.length } ∧
        (writeRecordTo { bytes := pre, pos := pre.length } rec info) =
          ({ info with fileStart := pre.length, fileEnd := pre.length + rec.length }, { bytes := pre ++ rec, pos := pre.length + rec.length }) := by
  obtain ⟨data, num, τ, -, -, hl, h⟩ := writeRecord_rec name buf bs opts hw
  have hok := writeRecord_Ok name bs opts data hw hl
  have hal := dataLen_align bs hw.blocks
  have hb := headerLen_bounds name hok.name
  have hh := header_length ⟨name, setCompression opts false, dataLen bs, data⟩
  have hp : padding data.length = 0 := by unfold padding; omega
  refine ⟨_, _, h, rfl, rfl, rfl, rfl, ?_, ?_, ?_, ?_⟩
  · intro i
    unfold setCompression
    by_cases h0 : i = 0
    · subst h0; simp
    · by_cases hi : i < 32
      · have := mask_bits ⟨i, hi⟩ (by intro h; exact h0 (congrArg Fin.val h))
        simp only at this
        simp [h0, hi, this]
      · simp [BitVec.getLsbD_of_ge _ _ (Nat.le_of_not_lt hi)]
  · rw [List.length_append, hh, hl]
  · rw [List.take_left' hh]
    unfold Rec.header
    simp only [hl]
  · intro pre post junk
    have h1 := readRecordInfo_eq junk pre (data ++ post) _ hok pre.length rfl
    refine ⟨?_, ?_⟩
    · rw [List.append_assoc, List.append_assoc, ← List.append_assoc pre, h1]
      unfold Rec.info Rec.wire
      rw [hl] at hp
      simp only [hp, hl, List.length_append, List.replicate_zero, List.append_nil]
    · rw [writeRecordTo_eq]
      have hp2 : padding ((⟨name, setCompression opts false, dataLen bs, data⟩ : Rec).header ++ data).length = 0 := by
        rw [List.length_append, hh]; unfold padding; simp only; omega
      rw [hp2]
      simp only [zeros, List.replicate_zero, List.append_nil, List.length_append]

example : Writable (str "rec") twoBlocks := twoBlocks_writable

/-- The jobs of the examples: a compressed record between two that are not. -/
def threeJobs : List Job := [⟨str "rec", 0, twoBlocks, false⟩, ⟨str "rec", 1, twoBlocks, true⟩, ⟨str "other", 4, [], false⟩]

/-- A lossless codec for the examples: it puts the byte 42 in front. -/
def toyCodec : Codec :=
  { compress := fun l => .ok (42 :: l)
    uncompress := fun l n => if l.length = n + 1 then .ok (l.drop 1) else .error .compressError }

theorem threeJobs_ok : ∀ j ∈ threeJobs, j.Ok toyCodec := by
  intro j hj
  simp only [threeJobs, List.mem_cons, List.not_mem_nil, or_false] at hj
  rcases hj with rfl | rfl | rfl
  · exact ⟨twoBlocks_writable, fun h => nomatch h⟩
  · refine ⟨twoBlocks_writable, fun _ data hd => ⟨42 :: data, rfl, ?_⟩⟩
    have : dataLen twoBlocks = 64 := by decide +kernel
    have h2 : headerLen (str "rec") = 28 := by decide
    simp only [List.length_cons]
    simp only at hd h2 ⊢
    omega
  · exact ⟨⟨by decide, by simp, by decide +kernel⟩, fun h => nomatch h⟩

/-- **C15**. Any records, some of them compressed, are written one after the other to a file that already holds any bytes. Reading
record after record from where the first was written returns the descriptions (name, options, lengths, position) and
the bytes (header and data) of the written records, in order, and then the end-of-file exception. The names and options are
those asked for. -/
theorem C15_sequential_reading (codec : Codec) (buf junk pre : List Byte) (js : List Job) (hj : ∀ j ∈ js, j.Ok codec) (fuel : Nat) (hf : js.length < fuel) :
    ∃ recs out, writeAll codec buf { bytes := pre, pos := pre.length } js = .ok (recs, out) ∧
      readAll fuel { bytes := out.bytes, pos := pre.length } junk = (recs, .eof) ∧
      recs.map (fun r => (r.1.name, r.1.options)) = js.map (fun j => (j.name, setCompression j.opts j.compress)) := by
  obtain ⟨rs, h1, h2, h3, h4⟩ := writeAll_eq codec buf pre js hj
  refine ⟨_, _, h3, readAll_eq rs h1 pre junk fuel (by omega) _ rfl, ?_⟩
  rw [← h4]
  generalize pre.length = p
  clear h1 h2 h3 h4
  induction rs generalizing p with
  | nil => rfl
  | cons r rs ih => simp only [infosFrom, List.map_cons, List.zip_cons_cons, List.cons.injEq]; exact ⟨rfl, ih _⟩

example : (∀ j ∈ threeJobs, j.Ok toyCodec) ∧
    ((writeAll toyCodec [] { bytes := [] } threeJobs).map fun x => x.1.map fun r => (r.1.fileStart, r.1.fileEnd, r.1.dataLength)) =
      .ok [(0, 92, 64), (92, 188, 65), (188, 220, 0)] := ⟨threeJobs_ok, by decide +kernel⟩

/-- **C16**. A record is written, compressed with any codec that is lossless on it, written to a file (between any other bytes), read and
uncompressed into a buffer of the stored uncompressed length: the result is the data of the record as it was before
compression. -/
theorem C16_compression_transparent (codec : Codec) (name buf junk pre post : List Byte) (bs : List WBlock) (opts : W32) (hw : Writable name bs)
    (hlossless : ∀ data comp, codec.compress data = .ok comp → codec.uncompress comp data.length = .ok data)
    (hj : Job.Ok codec ⟨name, opts, bs, true⟩) :
    ∃ info rec info' bytes out info'' s' stored,
      writeRecord name buf bs opts = .ok (info, rec) ∧
      writeJob codec buf { bytes := pre, pos := pre.length } ⟨name, opts, bs, true⟩ = .ok (info', bytes, out) ∧
      readRecord { bytes := out.bytes ++ post, pos := pre.length } junk = (.ok info'', s', stored) ∧
      info''.name = name ∧ isCompressed info''.options = true ∧
      codec.uncompress (stored.drop info''.headerLength) info''.uncompressedLength = .ok (rec.drop info.headerLength) := by
  obtain ⟨data, num, τ, -, -, hl, h⟩ := writeRecord_rec name buf bs opts hw
  have hok := writeRecord_Ok name bs opts data hw hl
  obtain ⟨comp, hcomp, hcl⟩ := hj.compressible rfl data hl
  simp only at hcl
  obtain ⟨rec', g1, g2⟩ := compressRecord_eq codec ⟨name, setCompression opts false, dataLen bs, data⟩ hok
    { headerLength := headerLen name, options := setCompression opts false, dataLength := dataLen bs,
             uncompressedLength := dataLen bs, name := name } comp rfl rfl hcomp (by omega)
  let r : Rec := ⟨name, setCompression (setCompression opts false) true, dataLen bs, comp⟩
  have hrok : r.Ok := by
    refine ⟨hok.name, ?_, hok.full, ?_⟩
    · rw [wire_length]
      have : padding comp.length ≤ 3 := by unfold padding; omega
      simp only [r]; omega
    · intro h; rw [isCompressed_set] at h; cases h
  have hread := readRecord_eq junk pre (zeros (padding comp.length) ++ post) r hrok pre.length rfl
  have hh := header_length r
  have hwj : writeJob codec buf { bytes := pre, pos := pre.length } ⟨name, opts, bs, true⟩ =
      .ok (r.info pre.length, r.header ++ r.data, { bytes := pre ++ r.wire, pos := (pre ++ r.wire).length }) := by
    unfold writeJob
    rw [h]
    simp only [bind, Except.bind, if_true, g1, g2, writeRecordTo2_eq, pure, Except.pure]
    unfold Rec.info Rec.wire
    simp only [zeros, List.length_append, List.append_assoc, r]
  have hread' : readRecord { bytes := pre ++ r.wire ++ post, pos := pre.length } junk =
      (.ok (r.info pre.length), ready (pre ++ r.wire ++ post) (pre.length + r.wire.length), r.header ++ r.data) := by
    have : pre ++ r.wire ++ post = pre ++ r.header ++ r.data ++ (zeros (padding comp.length) ++ post) := by
      simp [Rec.wire, zeros, r]
    rw [this]
    exact hread
  refine ⟨_, _, _, _, _, _, _, _, h, hwj, hread', rfl, isCompressed_set _ _, ?_⟩
  rw [show (r.info pre.length).headerLength = r.header.length from hh.symm, List.drop_left]
  have hh0 := header_length ⟨name, setCompression opts false, dataLen bs, data⟩
  have := hlossless data comp hcomp
  rw [hl] at this
  simp only [← hh0, List.drop_left]
  exact this

example : (∀ data comp, toyCodec.compress data = .ok comp → toyCodec.uncompress comp data.length = .ok data) ∧
    Job.Ok toyCodec ⟨str "rec", 1, twoBlocks, true⟩ := by
  refine ⟨?_, threeJobs_ok _ (by simp [threeJobs])⟩
  intro data comp h
  cases h
  simp [toyCodec]

/-- **C17**, for arbitrary predicates and callbacks, which may have side effects (`σ` is what they act on) and throw: `read_records` delivers
records as `scan` says, and leaves the stream at the start of the first record that was not looked at. -/
theorem C17_read_records {σ : Type} (valid : σ → RecordInfo → σ × Bool) (func : σ → RecordInfo → List Byte → σ × Except Err Bool)
    (rs : List Rec) (hr : ∀ r ∈ rs, r.Ok) (pre buf : List Byte) (st : σ) (fuel : Nat) (hf : rs.length < fuel) :
    ∃ s' buf', readRecords valid func fuel st { bytes := pre ++ fileOf rs, pos := pre.length } buf =
        ((scan valid func st pre.length rs).1, (scan valid func st pre.length rs).2.1, s', buf') ∧
      ∀ rem, (scan valid func st pre.length rs).2.2 = some rem →
        s' = { bytes := pre ++ fileOf rs, pos := (pre ++ fileOf rs).length - (fileOf rem).length } := by
  obtain ⟨s', buf', h1, h2⟩ := readRecords_scan valid func rs hr pre buf st fuel hf pre.length rfl
  refine ⟨s', buf', h1, ?_⟩
  intro rem hrem
  rw [h2, hrem]

theorem scan_collect (valid : RecordInfo → Bool) (more : RecordInfo → List Byte → Bool) (rs : List Rec) (p : Nat) (acc : List (RecordInfo × List Byte)) :
    let out := upTo (fun x => more x.1 x.2) (((infosFrom p rs).zip (rs.map Rec.data)).filter fun x => valid x.1)
    (scan (fun s i => (s, valid i)) (fun s i d => (s ++ [(i, d)], .ok (more i d))) acc p rs).1 = acc ++ out ∧
    (scan (fun s i => (s, valid i)) (fun s i d => (s ++ [(i, d)], .ok (more i d))) acc p rs).2.1 =
      (if out.all (fun x => more x.1 x.2) then .error .eof else .ok ()) := by
  induction rs generalizing p acc with
  | nil => simp [scan, infosFrom, upTo]
  | cons r rs ih =>
    unfold scan
    simp only [infosFrom, List.map_cons, List.zip_cons_cons, List.filter_cons]
    cases hv : valid (r.info p) with
    | false =>
      simp only [Bool.false_eq_true, if_false]
      exact ih _ _
    | true =>
      simp only [if_true]
      cases hm : more (r.info p) r.data with
      | true =>
        simp only [upTo, hm, if_true, List.all_cons, Bool.true_and]
        have := ih (p + r.wire.length) (acc ++ [(r.info p, r.data)])
        simp only [List.append_assoc, List.singleton_append] at this
        exact this
      | false => simp [upTo, hm]

/-- **C17**. On a file of records (after any bytes `pre`), with a predicate `valid` and a callback that answers `more`, `read_records` calls
the callback with exactly the records that satisfy the predicate, in file order, up to and including the first one for
which the answer is false. It returns normally in this case, and with the end-of-file exception if there is none. -/
theorem C17_record_filtering (valid : RecordInfo → Bool) (more : RecordInfo → List Byte → Bool)
    (rs : List Rec) (hr : ∀ r ∈ rs, r.Ok) (pre buf : List Byte) (fuel : Nat) (hf : rs.length < fuel) :
    let out := upTo (fun x => more x.1 x.2) (((infosFrom pre.length rs).zip (rs.map Rec.data)).filter fun x => valid x.1)
    ∃ s' buf', readRecords (fun s i => (s, valid i)) (fun s i d => (s ++ [(i, d)], .ok (more i d))) fuel []
        { bytes := pre ++ fileOf rs, pos := pre.length } buf =
      (out, (if out.all (fun x => more x.1 x.2) then .error .eof else .ok ()), s', buf') := by
  obtain ⟨s', buf', h1, -⟩ := readRecords_scan (fun s i => (s, valid i)) (fun s i d => (s ++ [(i, d)], .ok (more i d))) rs hr pre buf [] fuel hf pre.length rfl
  have h2 := scan_collect valid more rs pre.length []
  refine ⟨s', buf', ?_⟩
  rw [h1, h2.1, h2.2, List.nil_append]

/-- Four records: names x, y, x, z. The second one has compressed data of five bytes. -/
def fourRecords : List Rec :=
  [⟨str "x", 0, 4, [1, 2, 3, 4]⟩, ⟨str "y", 1, 100, [1, 2, 3, 4, 5]⟩, ⟨str "x", 0, 0, []⟩, ⟨str "z", 2, 8, [8, 7, 6, 5, 4, 3, 2, 1]⟩]

theorem fourRecords_ok : ∀ r ∈ fourRecords, r.Ok := by
  intro r hr
  simp only [fourRecords, List.mem_cons, List.not_mem_nil, or_false] at hr
  rcases hr with rfl | rfl | rfl | rfl <;> exact ⟨by decide, by decide +kernel, by decide, by decide⟩

example : (∀ r ∈ fourRecords, r.Ok) ∧
    ((upTo (fun _ => true) (((infosFrom 0 fourRecords).zip (fourRecords.map Rec.data)).filter fun x => x.1.name == str "x")).map (·.1.fileStart)) =
      [0, 68] := ⟨fourRecords_ok, by decide +kernel⟩

/-! ### C18 -/

theorem scan_skipN (n c : Nat) (rs : List Rec) (p : Nat) (h : c < n) :
    let sc := scan (fun s _ => (s, true)) (fun s (_ : RecordInfo) _ => (s + 1, Except.ok (decide (s + 1 < n)))) c p rs
    if n - c ≤ rs.length then sc.2.1 = .ok () ∧ sc.2.2 = some (rs.drop (n - c)) else sc.2.1 = .error .eof ∧ sc.2.2 = none := by
  induction rs generalizing c p with
  | nil => rw [if_neg (by simp; omega)]; exact ⟨rfl, rfl⟩
  | cons r rs ih =>
    unfold scan
    by_cases hc : c + 1 < n
    · have := ih (c + 1) (p + r.wire.length) hc
      simp only [hc, decide_true, List.length_cons] at this ⊢
      rw [show n - c = n - (c + 1) + 1 by omega, List.drop_succ_cons]
      simp only [Nat.add_le_add_iff_right]
      exact this
    · simp only [hc, decide_false, List.length_cons]
      rw [if_pos (by omega), show n - c = 1 by omega]
      exact ⟨trivial, rfl⟩

theorem file_position (pre : List Byte) (a b : List Rec) :
    (pre ++ fileOf (a ++ b)).length - (fileOf b).length = (pre ++ fileOf a).length := by
  rw [fileOf_append]; simp only [List.length_append]; omega

/-- **C18** for `skip_n_records` with n ≥ 1: if there are n records, the stream is left right after the n-th one (which is the start of
the next record, if any); otherwise the end-of-file exception is thrown. For n = 0 see `C18_fails_for_zero`. -/
theorem C18_skip_n_partial (n : Nat) (hn : 0 < n) (rs : List Rec) (hr : ∀ r ∈ rs, r.Ok) (pre : List Byte) (fuel : Nat) (hf : rs.length < fuel) :
    if n ≤ rs.length then
      skipNRecords fuel n { bytes := pre ++ fileOf rs, pos := pre.length } =
        (.ok (), { bytes := pre ++ fileOf rs, pos := (pre ++ fileOf (rs.take n)).length })
    else (skipNRecords fuel n { bytes := pre ++ fileOf rs, pos := pre.length }).1 = .error .eof := by
  obtain ⟨s', h1, h2⟩ := skipRecordsLoop_scan (fun (c : Nat) (_ : RecordInfo) => (c + 1, decide (c + 1 < n))) rs hr pre (zeros maxRecordInfoLen) 0 fuel hf pre.length rfl
  have h3 := scan_skipN n 0 rs pre.length hn
  simp only [Nat.sub_zero] at h3
  unfold skipNRecords skipRecords
  rw [h1]
  split
  · rename_i hle
    rw [if_pos hle] at h3
    simp only [h3.1, h2, h3.2]
    have := file_position pre (rs.take n) (rs.drop n)
    rw [List.take_append_drop] at this
    rw [this]
  · rename_i hle
    rw [if_neg hle] at h3
    exact h3.1

/-- **C18** is not true of `skip_n_records(0)`: it skips a record, like `skip_n_records(1)`, on every stream; and throws at the end of a file. -/
theorem C18_fails_for_zero :
    (∀ fuel s, skipNRecords fuel 0 s = skipNRecords fuel 1 s) ∧
    (skipNRecords 5 0 { bytes := fileOf fourRecords }) = (.ok (), { bytes := fileOf fourRecords, pos := 32 }) ∧
    (skipNRecords 5 0 { bytes := [] }).1 = .error .eof := by
  refine ⟨?_, by decide +kernel, by decide +kernel⟩
  intro fuel s
  unfold skipNRecords skipRecords
  have : (fun (c : Nat) (_ : RecordInfo) => (c + 1, decide (c + 1 < 0))) = (fun (c : Nat) (_ : RecordInfo) => (c + 1, decide (c + 1 < 1))) := by
    funext c i
    simp
  rw [this]

theorem scan_named (n : Nat) (name : List Byte) (c : Nat) (as : List Rec) (r : Rec) (bs : List Rec) (p : Nat) (h : c < n)
    (hc : c + (as.filter fun a => a.name == name).length + 1 = n) (hr : r.name = name) :
    let pred := fun (c : Nat) (i : RecordInfo) => let c' := if name = i.name then c + 1 else c; (c', decide (c' < n))
    let sc := scan (fun s _ => (s, true)) (fun s i _ => ((pred s i).1, Except.ok (pred s i).2)) c p (as ++ r :: bs)
    sc.2.1 = .ok () ∧ sc.2.2 = some bs := by
  induction as generalizing c p with
  | nil =>
    simp only [List.filter_nil, List.length_nil] at hc
    simp only [List.nil_append]
    unfold scan
    simp only [Rec.info, hr, if_true, show ¬ (c + 1 < n) by omega, decide_false]
    exact ⟨trivial, trivial⟩
  | cons a as ih =>
    simp only [List.cons_append]
    unfold scan
    by_cases ha : a.name = name
    · rw [List.filter_cons_of_pos (by simpa using ha), List.length_cons] at hc
      simp only [Rec.info, ha, if_true, show c + 1 < n by omega, decide_true]
      exact ih (c + 1) _ (by omega) (by omega)
    · rw [List.filter_cons_of_neg (by simpa using ha)] at hc
      simp only [Rec.info, show ¬ (name = a.name) from fun h => ha h.symm, if_false, h, decide_true]
      exact ih c _ h hc

/-- **C18** for `skip_records(n, name)`: the stream is left right after the n-th record with that name. -/
theorem C18_skip_named (n : Nat) (name : List Byte) (as bs : List Rec) (r : Rec) (hn : (as.filter fun a => a.name == name).length + 1 = n)
    (hname : r.name = name) (hr : ∀ x ∈ as ++ r :: bs, x.Ok) (pre : List Byte) (fuel : Nat) (hf : (as ++ r :: bs).length < fuel) :
    skipRecordsNamed fuel n name { bytes := pre ++ fileOf (as ++ r :: bs), pos := pre.length } =
      (.ok (), { bytes := pre ++ fileOf (as ++ r :: bs), pos := (pre ++ fileOf (as ++ [r])).length }) := by
  obtain ⟨s', h1, h2⟩ := skipRecordsLoop_scan
    (fun (c : Nat) (i : RecordInfo) => let c' := if name = i.name then c + 1 else c; (c', decide (c' < n)))
    (as ++ r :: bs) hr pre (zeros maxRecordInfoLen) 0 fuel hf pre.length rfl
  have h3 := scan_named n name 0 as r bs pre.length (by omega) (by omega) hname
  simp only at h1 h2 h3
  unfold skipRecordsNamed skipRecords
  simp only
  rw [h1]
  simp only [h3.1, h2, h3.2]
  rw [show as ++ r :: bs = (as ++ [r]) ++ bs by simp, file_position]

theorem scan_goTo (name : List Byte) (g : Nat) (as : List Rec) (r : Rec) (bs : List Rec) (p : Nat)
    (ha : ∀ a ∈ as, a.name ≠ name) (hr : r.name = name) :
    let pred := fun (g : Nat) (i : RecordInfo) => if name = i.name then (i.fileStart, false) else (g, true)
    let sc := scan (fun s _ => (s, true)) (fun s i _ => ((pred s i).1, Except.ok (pred s i).2)) g p (as ++ r :: bs)
    sc.1 = p + (fileOf as).length ∧ sc.2.1 = .ok () ∧ sc.2.2 = some bs := by
  induction as generalizing g p with
  | nil =>
    simp only [List.nil_append]
    unfold scan
    simp only [Rec.info, hr, if_true]
    exact ⟨rfl, trivial, trivial⟩
  | cons a as ih =>
    simp only [List.cons_append]
    unfold scan
    have h1 := ha a (by simp)
    simp only [Rec.info, show ¬ (name = a.name) from fun h => h1 h.symm, if_false]
    have := ih g (p + a.wire.length) (fun b hb => ha b (by simp [hb]))
    simp only at this
    rw [this.1, this.2.1, this.2.2]
    refine ⟨?_, rfl, rfl⟩
    rw [fileOf_cons, List.length_append]; omega

theorem scan_goTo_none (name : List Byte) (g : Nat) (as : List Rec) (p : Nat) (ha : ∀ a ∈ as, a.name ≠ name) :
    let pred := fun (g : Nat) (i : RecordInfo) => if name = i.name then (i.fileStart, false) else (g, true)
    (scan (fun s _ => (s, true)) (fun s i _ => ((pred s i).1, Except.ok (pred s i).2)) g p as).2.1 = .error .eof := by
  induction as generalizing g p with
  | nil => rfl
  | cons a as ih =>
    unfold scan
    have h1 := ha a (by simp)
    simp only [Rec.info, show ¬ (name = a.name) from fun h => h1 h.symm, if_false]
    exact ih g _ (fun b hb => ha b (by simp [hb]))

/-- **C18** for `go_to_record(name)`: the stream is left at the start of the next record with that name; if there is none the end-of-file
exception is thrown. -/
theorem C18_go_to_record (name : List Byte) (as : List Rec) (ha : ∀ a ∈ as, a.name ≠ name) (pre : List Byte) (fuel : Nat) :
    (∀ r bs, r.name = name → (∀ x ∈ as ++ r :: bs, x.Ok) → (as ++ r :: bs).length < fuel →
      goToRecord fuel name { bytes := pre ++ fileOf (as ++ r :: bs), pos := pre.length } =
        (.ok (), { bytes := pre ++ fileOf (as ++ r :: bs), pos := (pre ++ fileOf as).length })) ∧
    ((∀ r ∈ as, r.Ok) → as.length < fuel →
      (goToRecord fuel name { bytes := pre ++ fileOf as, pos := pre.length }).1 = .error .eof) := by
  constructor
  · intro r bs hname hr hf
    obtain ⟨s', h1, h2⟩ := skipRecordsLoop_scan
      (fun (g : Nat) (i : RecordInfo) => if name = i.name then (i.fileStart, false) else (g, true))
      (as ++ r :: bs) hr pre (zeros maxRecordInfoLen) 0 fuel hf pre.length rfl
    have h3 := scan_goTo name 0 as r bs pre.length ha hname
    simp only at h1 h2 h3
    unfold goToRecord skipRecords
    rw [h1]
    simp only [h3.2.1, h2, h3.2.2, h3.1, seekg_ready, ready_good]
    simp
  · intro hr hf
    obtain ⟨s', h1, -⟩ := skipRecordsLoop_scan
      (fun (g : Nat) (i : RecordInfo) => if name = i.name then (i.fileStart, false) else (g, true))
      as hr pre (zeros maxRecordInfoLen) 0 fuel hf pre.length rfl
    have h3 := scan_goTo_none name 0 as pre.length ha
    simp only at h1 h3
    unfold goToRecord skipRecords
    rw [h1]
    simp only [h3]

example : (goToRecord 5 (str "z") { bytes := fileOf fourRecords }) = (.ok (), { bytes := fileOf fourRecords, pos := 96 }) ∧
    (skipNRecords 5 2 { bytes := fileOf fourRecords }) = (.ok (), { bytes := fileOf fourRecords, pos := 68 }) ∧
    (skipRecordsNamed 5 2 (str "x") { bytes := fileOf fourRecords }) = (.ok (), { bytes := fileOf fourRecords, pos := 96 }) := by decide +kernel

/-! ### C19, C20 -/

/-- **C19**. A file of records is cut at any byte. Reading the remains record by record returns exactly the records whose header
and data are still there, unchanged, and then ends with an exception. (Padding bytes after the data of the last one may
be missing.) -/
theorem C19_truncation (rs : List Rec) (hr : ∀ r ∈ rs, r.Ok) (k : Nat) (buf : List Byte) (fuel : Nat) (hf : rs.length < fuel) :
    ∃ e, readAll fuel { bytes := (fileOf rs).take k } buf =
        ((infosFrom 0 (contained k rs)).zip ((contained k rs).map fun r => r.header ++ r.data), e) ∧
      (e = .eof ∨ e = .noMarker ∨ e = .badState ∨ e = .ioFailure) := by
  have := readAll_cut rs hr [] buf k fuel hf 0 rfl
  simpa using this

/-- `contained k` is a prefix of the records: those that end within the first k bytes, except for padding. -/
theorem C19_contained (rs : List Rec) (k : Nat) :
    ∃ n, contained k rs = rs.take n ∧
      (∀ i, (hi : i < rs.length) → (i < n ↔ (fileOf (rs.take i)).length + rs[i].header.length + rs[i].data.length ≤ k)) := by
  induction rs generalizing k with
  | nil => exact ⟨0, rfl, fun i hi => by simp at hi⟩
  | cons r rs ih =>
    have hlen := wire_length r
    have hl := header_length r
    by_cases h : r.header.length + r.data.length ≤ k
    · obtain ⟨n, h1, h2⟩ := ih (k - r.wire.length)
      refine ⟨n + 1, by simp [contained, h, h1], ?_⟩
      intro i hi
      cases i with
      | zero => simp [fileOf_nil]; omega
      | succ i =>
        have hi' : i < rs.length := by simpa using hi
        have := h2 i hi'
        have h24 : 24 ≤ rs[i].header.length := by rw [header_length]; unfold headerLen; omega
        simp only [List.take_succ_cons, fileOf_cons, List.length_append, List.getElem_cons_succ, Nat.add_lt_add_iff_right]
        rw [this]
        omega
    · refine ⟨0, by simp [contained, h], ?_⟩
      intro i hi
      cases i with
      | zero => simp [fileOf_nil]; omega
      | succ i =>
        simp only [List.take_succ_cons, fileOf_cons, List.length_append]
        omega

example : (readAll 5 { bytes := (fileOf fourRecords).take 66 } []).1.map (·.1.name) = [str "x", str "y"] ∧
    (readAll 5 { bytes := (fileOf fourRecords).take 64 } []).1.map (·.1.name) = [str "x"] := by decide +kernel

theorem overwrite_start (l b : List Byte) (o : Nat) (h : o + 4 ≤ b.length) : wordAt (overwrite l 0 b) o = wordAt b o := by
  rw [overwrite_zero]
  unfold wordAt
  rw [List.drop_append_of_le_length (by omega), List.take_append_of_le_length (by simp; omega)]

theorem overwrite_length_ge (l b : List Byte) (o : Nat) : l.length ≤ (overwrite l o b).length := by
  unfold overwrite resize zeros
  simp only [List.length_append, List.length_take, List.length_drop, List.length_replicate]
  omega

theorem header_over (w R : Nat) (hw : w < 2 ^ 32) : (min ((w + 2 ^ 32 - 8) % 2 ^ 32) R > 116 - 8) ↔ (108 < R ∧ (w < 8 ∨ 116 < w)) := by
  have h : (w + 2 ^ 32 - 8) % 2 ^ 32 = if w < 8 then w + 2 ^ 32 - 8 else w - 8 := by
    split <;> omega
  rw [h, gt_iff_lt, Nat.lt_min]
  split <;> omega

/-- **C20**, exactly when it holds: reading a record header at position p writes outside the header buffer if and only if there is a
marker at p + 4, more than 116 bytes follow p, and the header length stored at p is below 8 or above 116. In particular
(`C20_header_safe_partial`) it never does so on files written by this library. -/
theorem C20_overflow_iff (B buf : List Byte) (p : Nat) :
    (readRecordInfo { bytes := B, pos := p } buf).1 = .error .ub ↔
      p + 116 < B.length ∧ wordAt B (p + 4) = 0xabadcafe ∧ (wordAt B p < 8 ∨ 116 < wordAt B p) := by
  have hres : (resize buf maxRecordInfoLen).length = 116 := by unfold resize zeros maxRecordInfoLen; simp; omega
  unfold readRecordInfo
  simp only [Bool.not_true, Bool.false_eq_true, if_false, IStream.good, Bool.not_false, Bool.and_self, IStream.read]
  by_cases h8 : p + 8 ≤ B.length
  · have hg : ((B.drop p).take 8).length = 8 := by simp; omega
    have hlt : ¬ (((B.drop p).take 8).length < 8) := by omega
    simp only [hlt, decide_false, Bool.false_eq_true, if_false, Bool.not_false, Bool.not_true]
    have hlen : (overwrite (resize buf maxRecordInfoLen) 0 ((B.drop p).take 8)).length = 116 := by
      rw [overwrite_zero]; simp only [List.length_append, List.length_drop, hres, hg]
    obtain ⟨d', hs⟩ := recordHeaderStart_ok (overwrite (resize buf maxRecordInfoLen) 0 ((B.drop p).take 8)) (by omega)
    rw [hs, overwrite_start _ _ _ (by omega), overwrite_start _ _ _ (by omega)]
    have w0 : wordAt ((B.drop p).take 8) 0 = wordAt B p := by
      unfold wordAt; rw [List.drop_zero, List.take_take]; rfl
    have w4 : wordAt ((B.drop p).take 8) 4 = wordAt B (p + 4) := by
      unfold wordAt; rw [List.drop_take, List.take_take, List.drop_drop]; rfl
    have wl := wordAt_lt B p (by omega)
    simp only [w0, w4]
    by_cases hm : wordAt B (p + 4) ≠ recordMarker
    · rw [if_pos hm]
      simp only [recordMarker] at hm
      constructor
      · intro h; cases h
      · intro h; exact absurd h.2.1 hm
    · rw [if_neg hm]
      have hm' : wordAt B (p + 4) = 0xabadcafe := Decidable.not_not.1 hm
      have hgot : ∀ n, ((B.drop (p + ((B.drop p).take 8).length)).take n).length = min n (B.length - (p + 8)) := by
        intro n; rw [hg]; simp
      simp only [hgot, maxRecordInfoLen]
      split
      · rename_i hub
        rw [header_over _ _ wl] at hub
        have hlong : p + 116 < B.length := by have := hub.1; clear hub hm hm'; omega
        exact ⟨fun _ => ⟨hlong, hm', hub.2⟩, fun _ => rfl⟩
      · rename_i hub
        rw [header_over _ _ wl] at hub
        have hno : ¬ (p + 116 < B.length ∧ (wordAt B p < 8 ∨ 116 < wordAt B p)) := fun h => hub ⟨by have := h.1; clear hub hm hm'; omega, h.2⟩
        have : ∀ b : List Byte, 88 ≤ b.length → recordHeaderRest.run { buf := b, cur := 8 } ≠ .error .ub := by
          intro b hb hc
          rcases recordHeaderRest_total b hb with ⟨x, hx⟩ | hx
          · rw [hx] at hc; cases hc
          · rw [hx] at hc; cases hc
        constructor
        · intro h
          exfalso
          split at h
          · rename_i e heq
            simp only [Except.error.injEq] at h
            rw [h] at heq
            exact this _ (Nat.le_trans (by rw [← maxRecordInfoLen, hlen]; decide) (overwrite_length_ge _ _ _)) heq
          · cases h
        · intro h; exact absurd ⟨h.1, h.2.2⟩ hno
  · have hlt : ((B.drop p).take 8).length < 8 := by simp; omega
    simp only [hlt, decide_true, if_true]
    constructor
    · intro h; cases h
    · intro h; omega

/-- **C20** for files in which every record header found has an acceptable length. -/
theorem C20_header_safe_partial (B buf : List Byte) (p : Nat) (h : 8 ≤ wordAt B p ∧ wordAt B p ≤ 116) :
    (readRecordInfo { bytes := B, pos := p } buf).1 ≠ .error .ub := by
  rw [ne_eq, C20_overflow_iff]
  omega

/-- **C20** is not true for all files: a file of 200 bytes that starts with the header length 200 and the marker overflows the header
buffer, whatever follows. -/
theorem C20_fails_for_long_header (rest buf : List Byte) (h : 109 ≤ rest.length) :
    (readRecordInfo { bytes := [0, 0, 0, 200, 0xab, 0xad, 0xca, 0xfe] ++ rest } buf).1 = .error .ub := by
  rw [C20_overflow_iff]
  refine ⟨by simp; omega, by simp [wordAt], .inr ?_⟩
  simp [wordAt]

end Props
