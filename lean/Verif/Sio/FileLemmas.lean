import Verif.Sio.StreamLemmas
/-
Files of records: lemmas.
-/
namespace Sio
open Spec

theorem fileOf_cons (r : Rec) (rs : List Rec) : fileOf (r :: rs) = r.wire ++ fileOf rs := rfl
theorem fileOf_nil : fileOf [] = [] := rfl
theorem fileOf_append (a b : List Rec) : fileOf (a ++ b) = fileOf a ++ fileOf b := by simp [fileOf]

theorem wire_pos (r : Rec) : 24 ≤ r.wire.length := by rw [wire_length]; unfold headerLen; omega

/-- Reading where nothing is left. -/
theorem readRecordInfo_end (B buf : List Byte) (p : Nat) (hp : B.length ≤ p) :
    ∃ buf', readRecordInfo (ready B p) buf = (.error .eof, failed B p, buf') := by
  have : (ready B p).read 8 = ([], failed B p) := by
    unfold IStream.read
    rw [ready_good]
    simp only [Bool.not_true, Bool.false_eq_true, if_false]
    rw [List.drop_of_length_le hp]
    simp
  unfold readRecordInfo
  simp only [ready_good, Bool.not_true, Bool.false_eq_true, if_false, this, if_true]
  exact ⟨_, rfl⟩

theorem readRecordInfo_failed (B buf : List Byte) (p : Nat) : readRecordInfo (failed B p) buf = (.error .badState, failed B p, buf) := rfl

theorem readRecordInfo_file (buf pre : List Byte) (r : Rec) (rs : List Rec) (hr : r.Ok) (p : Nat) (hp : p = pre.length) (post : List Byte) :
    readRecordInfo (ready (pre ++ fileOf (r :: rs) ++ post) p) buf =
      (.ok (r.info p), ready (pre ++ fileOf (r :: rs) ++ post) (p + headerLen r.name), r.header) := by
  have e : pre ++ fileOf (r :: rs) ++ post = pre ++ r.header ++ (r.data ++ List.replicate (padding r.data.length) 0 ++ fileOf rs ++ post) := by
    simp [fileOf_cons, Rec.wire]
  rw [e]
  exact readRecordInfo_eq buf pre _ r hr p hp

theorem readRecordData_file (pre : List Byte) (r : Rec) (rs : List Rec) (p q : Nat) (hp : p = pre.length) (post : List Byte) :
    readRecordData (ready (pre ++ fileOf (r :: rs) ++ post) q) (r.info p) r.header (headerLen r.name) =
      (.ok (), ready (pre ++ fileOf (r :: rs) ++ post) (p + r.wire.length), r.header ++ r.data) := by
  have e : pre ++ fileOf (r :: rs) ++ post = pre ++ r.header ++ r.data ++ (List.replicate (padding r.data.length) 0 ++ fileOf rs ++ post) := by
    simp [fileOf_cons, Rec.wire]
  rw [e]
  exact readRecordData_eq pre _ r p q hp

theorem readRecords_scan {σ : Type} (valid : σ → RecordInfo → σ × Bool) (func : σ → RecordInfo → List Byte → σ × Except Err Bool)
    (rs : List Rec) (hr : ∀ r ∈ rs, r.Ok) (pre buf : List Byte) (st : σ) (fuel : Nat) (hf : rs.length < fuel) (p : Nat) (hp : p = pre.length) :
    ∃ s' buf', readRecords valid func fuel st (ready (pre ++ fileOf rs) p) buf =
        ((scan valid func st p rs).1, (scan valid func st p rs).2.1, s', buf') ∧
      s' = (match (scan valid func st p rs).2.2 with
        | none => failed (pre ++ fileOf rs) (pre ++ fileOf rs).length
        | some rem => ready (pre ++ fileOf rs) ((pre ++ fileOf rs).length - (fileOf rem).length)) := by
  induction rs generalizing pre buf st fuel p with
  | nil =>
    cases fuel with
    | zero => simp at hf
    | succ fuel =>
      obtain ⟨b', h⟩ := readRecordInfo_end (pre ++ fileOf []) buf p (by simp [fileOf_nil, hp])
      refine ⟨_, b', ?_, rfl⟩
      unfold readRecords
      rw [h]
      simp [scan, fileOf_nil, hp]
  | cons r rs ih =>
    cases fuel with
    | zero => simp at hf
    | succ fuel =>
      have hr1 := hr r (by simp)
      have h1 := readRecordInfo_file buf pre r rs hr1 p hp []
      have h2 := readRecordData_file pre r rs p (p + headerLen r.name) hp []
      simp only [List.append_nil] at h1 h2
      have hsplit : pre ++ fileOf (r :: rs) = (pre ++ r.wire) ++ fileOf rs := by simp [fileOf_cons]
      have hspan : spanOf (r.header ++ r.data) (headerLen r.name) r.data.length = .ok r.data := by
        unfold spanOf
        rw [if_neg (by simp [header_length]), ← header_length, List.drop_left, List.take_length]
      have ih' := fun st buf => ih (fun r' h' => hr r' (by simp [h'])) (pre ++ r.wire) buf st fuel (by simpa using hf) (p + r.wire.length) (by simp [hp])
      unfold readRecords scan
      rw [h1]
      simp only
      cases hv : valid st (r.info p) with
      | mk st1 v =>
        cases v with
        | false =>
          simp only [seekg_ready]
          rw [show (r.info p).fileEnd = p + r.wire.length from rfl, hsplit]
          exact ih' st1 r.header
        | true =>
          simp only
          rw [show (r.info p).headerLength = headerLen r.name from rfl, show (r.info p).dataLength = r.data.length from rfl, h2]
          simp only [hspan]
          cases hfn : func st1 (r.info p) r.data with
          | mk st2 res =>
            cases res with
            | error e =>
              refine ⟨_, _, rfl, ?_⟩
              simp only [hsplit, List.length_append]
              congr 1
              omega
            | ok c =>
              cases c with
              | true =>
                simp only
                rw [hsplit]
                exact ih' st2 _
              | false =>
                refine ⟨_, _, rfl, ?_⟩
                simp only [hsplit, List.length_append]
                congr 1
                omega

/-- Skipping records, on a file of records. -/
theorem skipRecordsLoop_scan {σ : Type} (pred : σ → RecordInfo → σ × Bool) (rs : List Rec) (hr : ∀ r ∈ rs, r.Ok) (pre buf : List Byte) (st : σ)
    (fuel : Nat) (hf : rs.length < fuel) (p : Nat) (hp : p = pre.length) :
    ∃ s', skipRecordsLoop pred fuel st (ready (pre ++ fileOf rs) p) buf =
        ((scan (fun s _ => (s, true)) (fun s i _ => ((pred s i).1, .ok (pred s i).2)) st p rs).1,
         (scan (fun s _ => (s, true)) (fun s i _ => ((pred s i).1, .ok (pred s i).2)) st p rs).2.1, s') ∧
      s' = (match (scan (fun s _ => (s, true)) (fun s i _ => ((pred s i).1, .ok (pred s i).2)) st p rs).2.2 with
        | none => failed (pre ++ fileOf rs) (pre ++ fileOf rs).length
        | some rem => ready (pre ++ fileOf rs) ((pre ++ fileOf rs).length - (fileOf rem).length)) := by
  induction rs generalizing pre buf st fuel p with
  | nil =>
    cases fuel with
    | zero => simp at hf
    | succ fuel =>
      obtain ⟨b', h⟩ := readRecordInfo_end (pre ++ fileOf []) buf p (by simp [fileOf_nil, hp])
      refine ⟨_, ?_, rfl⟩
      unfold skipRecordsLoop
      rw [h]
      simp [scan, fileOf_nil, hp]
  | cons r rs ih =>
    cases fuel with
    | zero => simp at hf
    | succ fuel =>
      have hr1 := hr r (by simp)
      have h1 := readRecordInfo_file buf pre r rs hr1 p hp []
      simp only [List.append_nil] at h1
      have hsplit : pre ++ fileOf (r :: rs) = (pre ++ r.wire) ++ fileOf rs := by simp [fileOf_cons]
      have ih' := fun st buf => ih (fun r' h' => hr r' (by simp [h'])) (pre ++ r.wire) buf st fuel (by simpa using hf) (p + r.wire.length) (by simp [hp])
      unfold skipRecordsLoop scan
      rw [h1]
      simp only [seekg_ready, ready_good, Bool.not_true, Bool.false_eq_true, if_false]
      rw [show (r.info p).fileEnd = p + r.wire.length from rfl]
      cases hv : pred st (r.info p) with
      | mk st1 v =>
        cases v with
        | true =>
          simp only
          rw [hsplit]
          exact ih' st1 r.header
        | false =>
          refine ⟨_, rfl, ?_⟩
          simp only [hsplit, List.length_append]
          congr 1
          omega

/-! ### Writing -/

theorem OStream.write_end (B b : List Byte) : OStream.write { bytes := B, pos := B.length } b = { bytes := B ++ b, pos := (B ++ b).length } := by
  unfold OStream.write
  cases b with
  | nil => simp
  | cons x b => simp only [List.isEmpty_cons, Bool.false_eq_true, if_false]; rw [overwrite_end]; simp

theorem resize_append (a l : List Byte) : resize (a ++ l) a.length = a := by
  simp [resize, zeros]

/-- Writing inside a file. -/
theorem OStream.write_mid (A b C : List Byte) (p : Nat) (hp : p = A.length) (hb : b.length ≤ C.length) :
    OStream.write { bytes := A ++ C, pos := p } b = { bytes := A ++ b ++ C.drop b.length, pos := p + b.length } := by
  subst hp
  unfold OStream.write
  cases b with
  | nil => simp
  | cons x b =>
    simp only [List.isEmpty_cons, Bool.false_eq_true, if_false]
    unfold overwrite
    rw [resize_append, List.drop_append, Nat.add_sub_cancel_left, List.drop_of_length_le (by omega)]
    simp

theorem writeRecordTo_eq (B rec : List Byte) (info : RecordInfo) :
    writeRecordTo { bytes := B, pos := B.length } rec info =
      ({ info with fileStart := B.length, fileEnd := (B ++ rec ++ zeros (padding rec.length)).length },
       { bytes := B ++ rec ++ zeros (padding rec.length), pos := (B ++ rec ++ zeros (padding rec.length)).length }) := by
  unfold writeRecordTo
  simp only [OStream.write_end, padBytes_eq]
  split
  · rfl
  · have : padding rec.length = 0 := by omega
    simp [this, zeros]

theorem writeRecordTo2_eq (B hdr data : List Byte) (info : RecordInfo) :
    writeRecordTo2 { bytes := B, pos := B.length } hdr data info =
      ({ info with fileStart := B.length, fileEnd := (B ++ hdr ++ data ++ zeros (padding data.length)).length },
       { bytes := B ++ hdr ++ data ++ zeros (padding data.length), pos := (B ++ hdr ++ data ++ zeros (padding data.length)).length }) := by
  unfold writeRecordTo2
  simp only [OStream.write_end, padBytes_eq]
  split
  · rfl
  · have : padding data.length = 0 := by omega
    simp [this, zeros]

theorem itemLen_align (i : Item) (h : fits i) : itemLen i % 4 = 0 := by
  cases i with
  | arr s v =>
    simp only [itemLen, itemBytes, wireArray_length]
    unfold padding; omega
  | ptr w => rw [itemLen_ptr]
  | tag w => rw [itemLen_tag]
  | bad => rfl

theorem bytesOf_align (is : List Item) (h : ∀ i ∈ is, fits i) : (bytesOf is).length % 4 = 0 := by
  induction is with
  | nil => rfl
  | cons i is ih =>
    rw [bytesOf_cons, List.length_append]
    have h1 := itemLen_align i (h i (by simp))
    have h2 := ih (fun j hj => h j (by simp [hj]))
    unfold itemLen at h1
    omega

theorem dataLen_align (bs : List WBlock) (h : ∀ b ∈ bs, blockFits b) : dataLen bs % 4 = 0 := by
  unfold dataLen
  apply bytesOf_align
  intro i hi
  unfold blocksItems at hi
  obtain ⟨b, hb, hi⟩ := List.mem_flatMap.1 hi
  rcases List.mem_append.1 hi with h1 | h1
  · exact fits_hdr b (h b hb) i h1
  · exact (h b hb).2.1 i h1

theorem isCompressed_set (o : W32) (v : Bool) : isCompressed (setCompression o v) = v := by
  have h1 : ∀ x : W32, (x &&& 1#32 = 0#32) ↔ x.getLsbD 0 = false := by
    intro x
    rw [show (1#32) = BitVec.twoPow 32 0 from rfl]
    constructor
    · intro h
      have := congrArg (fun y => BitVec.getLsbD y 0) h
      simpa using this
    · intro h
      ext i hi
      simp only [BitVec.getElem_and, BitVec.getElem_twoPow]
      by_cases h0 : i = 0
      · subst h0
        have h' : x[0] = false := by rw [← BitVec.getLsbD_eq_getElem]; exact h
        simp [h']
      · simp [h0]
  have h2 : isCompressed (setCompression o v) = (setCompression o v).getLsbD 0 := by
    unfold isCompressed
    rw [Bool.eq_iff_iff, bne_iff_ne, ne_eq, h1]
    cases (setCompression o v).getLsbD 0 <;> simp
  rw [h2]
  unfold setCompression
  cases v <;> simp

/-- The record in memory produced by `write_record`, as a header and data. -/
theorem writeRecord_rec (name buf : List Byte) (bs : List WBlock) (opts : W32) (hw : Writable name bs) :
    ∃ data num τ, data = bytesOf (withWords τ (headerLen name) (blocksItems bs)) ∧
      Numbered (blocksItems bs) (headerLen name) num τ ∧ data.length = dataLen bs ∧
      writeRecord name buf bs opts =
        .ok ({ headerLength := headerLen name, options := setCompression opts false, dataLength := dataLen bs,
               uncompressedLength := dataLen bs, name := name },
             (⟨name, setCompression opts false, dataLen bs, data⟩ : Rec).header ++ data) := by
  obtain ⟨num, τ, h1, h2⟩ := writeRecord_eq name buf bs opts hw.nameOk hw.blocks hw.size
  have hl : (bytesOf (withWords τ (headerLen name) (blocksItems bs))).length = dataLen bs := by
    rw [withWords_bytes_length]; rfl
  refine ⟨_, num, τ, rfl, Numbered.data _ _ _ _ _ h2, hl, ?_⟩
  rw [h1]
  congr 2
  have e : recordItems name (setCompression opts false) bs =
      headerItems name (setCompression opts false) (dataLen bs) (dataLen bs) ++ blocksItems bs := rfl
  have hl' : (bytesOf (headerItems name (setCompression opts false) (dataLen bs) (dataLen bs))).length = headerLen name := by
    have := header_length ⟨name, setCompression opts false, dataLen bs, bytesOf (withWords τ (headerLen name) (blocksItems bs))⟩
    unfold Rec.header at this
    simp only [hl] at this
    exact this
  rw [e, withWords_append, bytesOf_append, Nat.zero_add, hl']
  congr 1
  unfold Rec.header
  simp only [hl]
  rfl

theorem name_le (name : List Byte) (h : validRecordName name = true) : name.length ≤ 64 := by
  unfold validRecordName at h
  split at h
  · cases h
  · split at h
    · cases h
    · omega

theorem writeRecord_Ok (name : List Byte) (bs : List WBlock) (opts : W32) (data : List Byte) (hw : Writable name bs) (hl : data.length = dataLen bs) :
    (⟨name, setCompression opts false, dataLen bs, data⟩ : Rec).Ok := by
  have hs := hw.size
  have ha := dataLen_align bs hw.blocks
  have hp : padding (dataLen bs) = 0 := by unfold padding; omega
  refine ⟨name_le name hw.nameOk, ?_, by simp only; omega, fun _ => by simp only; omega⟩
  rw [wire_length]
  simp only [hl, hp]
  omega

/-- Compressing a record replaces the words of its header for options and length of the data. -/
theorem compressRecord_eq (codec : Codec) (r : Rec) (hr : r.Ok) (info : RecordInfo) (comp : List Byte)
    (hi : info.headerLength = headerLen r.name) (ho : info.options = r.opts) (hc : codec.compress r.data = .ok comp) (hl : comp.length < 2 ^ 32) :
    ∃ rec', compressRecord codec info (r.header ++ r.data) =
        .ok ({ info with options := setCompression r.opts true, dataLength := comp.length }, rec', comp) ∧
      spanOf rec' 0 info.headerLength = .ok ({ r with opts := setCompression r.opts true, data := comp } : Rec).header := by
  have hb := headerLen_bounds r.name hr.name
  have hlen := header_length r
  let is : List Item := [.arr 4 [info.headerLength], .arr 4 [recordMarker], .arr 4 [(setCompression info.options true).toNat], .arr 4 [comp.length % 2 ^ 32]]
  have hfits : ∀ i ∈ is, fits i := by
    intro i hi
    simp only [is, List.mem_cons, List.not_mem_nil, or_false] at hi
    rcases hi with rfl | rfl | rfl | rfl <;> simp [fits]
  obtain ⟨d', h1, h2, h3, h4, h5, h6, -⟩ := WDev.run_eq { buf := r.header ++ r.data } is (Nat.zero_le _) hfits
  refine ⟨d'.buf, ?_, ?_⟩
  · unfold compressRecord
    rw [show List.drop info.headerLength (r.header ++ r.data) = r.data by rw [hi, ← hlen, List.drop_left]]
    rw [if_neg (by simp [hi, hlen])]
    simp only [pure, Except.pure, bind, Except.bind, hc]
    rw [h1, ho, Nat.mod_eq_of_lt hl]
    rfl
  · have hcur : d'.cur = 16 := by
      rw [h2]
      simp only [bytesOf_length, is, List.map_cons, List.map_nil, List.sum_cons, List.sum_nil]
      have : ∀ n, itemLen (.arr 4 [n]) = 4 := itemLen_word
      simp only [this, Nat.zero_add, Nat.reduceAdd, Nat.add_zero]
    simp only [hcur, List.take_zero, List.nil_append] at h5
    have hle : info.headerLength ≤ d'.buf.length := by
      simp only [List.length_append] at h4
      omega
    unfold spanOf
    rw [if_neg (by omega)]
    congr 1
    rw [List.drop_zero]
    let r' : Rec := { r with opts := setCompression r.opts true, data := comp }
    have e : ∀ x : Rec, x.header = bytesOf [word (headerLen x.name), word recordMarker, word x.opts.toNat, word x.data.length] ++
        bytesOf [word x.full, word x.name.length, chars x.name] := by
      intro x
      rw [← bytesOf_append]; rfl
    have hs : ∀ a b c d, (bytesOf [word a, word b, word c, word d]).length = 16 := by
      intro a b c d
      simp only [bytesOf_length, List.map_cons, List.map_nil, List.sum_cons, List.sum_nil, itemLen_word, Nat.reduceAdd, Nat.add_zero]
    have hfirst : d'.buf.take 16 = r'.header.take 16 := by
      rw [h5, e r']
      rw [List.take_left' (hs _ _ _ _)]
      simp only [is, r', hi, ho, Nat.mod_eq_of_lt hl]
      rfl
    have hrest : r'.header.drop 16 = r.header.drop 16 := by
      rw [e r', e r, List.drop_left' (hs _ _ _ _), List.drop_left' (hs _ _ _ _)]
    have hlen' : r'.header.length = headerLen r.name := header_length r'
    apply List.ext_getElem?
    intro j
    by_cases hj : j < 16
    · have := congrArg (fun l => l[j]?) hfirst
      simp only [List.getElem?_take, hj, if_true] at this
      rw [List.getElem?_take, if_pos (by omega), this]
    · by_cases hj2 : j < info.headerLength
      · rw [List.getElem?_take, if_pos hj2, h6 j (by omega) (by simp; omega), List.getElem?_append_left (by omega)]
        have := congrArg (fun l => l[j - 16]?) hrest
        simp only [List.getElem?_drop] at this
        rw [show 16 + (j - 16) = j by omega] at this
        exact this.symm
      · rw [List.getElem?_take, if_neg hj2]
        exact (List.getElem?_eq_none (by rw [hi] at hj2; exact hlen' ▸ (by omega))).symm

/-- What a job puts on the stream. -/
theorem writeJob_eq (codec : Codec) (buf B : List Byte) (j : Job) (hj : j.Ok codec) :
    ∃ r : Rec, r.Ok ∧ writeJob codec buf { bytes := B, pos := B.length } j =
      .ok (r.info B.length, r.header ++ r.data, { bytes := B ++ r.wire, pos := (B ++ r.wire).length }) ∧
      r.name = j.name ∧ r.opts = setCompression j.opts j.compress := by
  obtain ⟨data, num, τ, -, -, hl, hw⟩ := writeRecord_rec j.name buf j.blocks j.opts hj.writable
  have hok := writeRecord_Ok j.name j.blocks j.opts data hj.writable hl
  have hal := dataLen_align j.blocks hj.writable.blocks
  have hb := headerLen_bounds j.name hok.name
  cases hc : j.compress with
  | false =>
    refine ⟨_, hok, ?_, rfl, rfl⟩
    unfold writeJob
    rw [hw]
    have hh := header_length ⟨j.name, setCompression j.opts false, dataLen j.blocks, data⟩
    have hp : padding data.length = 0 := by unfold padding; omega
    have hp2 : padding (List.length ((⟨j.name, setCompression j.opts false, dataLen j.blocks, data⟩ : Rec).header ++ data)) = 0 := by
      rw [List.length_append, hh]; unfold padding; simp only; omega
    simp only [bind, Except.bind, hc, Bool.false_eq_true, if_false, writeRecordTo_eq, hp2, pure, Except.pure]
    unfold Rec.info Rec.wire
    rw [hl] at hp
    simp only [hp, zeros, List.replicate_zero, List.append_nil, List.length_append, hl]
  | true =>
    obtain ⟨comp, hcomp, hcl⟩ := hj.compressible hc data hl
    obtain ⟨rec', g1, g2⟩ := compressRecord_eq codec ⟨j.name, setCompression j.opts false, dataLen j.blocks, data⟩ hok
      { headerLength := headerLen j.name, options := setCompression j.opts false, dataLength := dataLen j.blocks,
               uncompressedLength := dataLen j.blocks, name := j.name } comp rfl rfl hcomp (by omega)
    have hss : setCompression (setCompression j.opts false) true = setCompression j.opts true := by
      unfold setCompression
      ext i hi
      simp
    simp only [hss] at g1 g2
    refine ⟨⟨j.name, setCompression j.opts true, dataLen j.blocks, comp⟩, ⟨hok.name, ?_, hok.full, ?_⟩, ?_, rfl, rfl⟩
    · rw [wire_length]
      have : padding comp.length ≤ 3 := by unfold padding; omega
      simp only; omega
    · intro h; rw [isCompressed_set] at h; cases h
    · unfold writeJob
      rw [hw]
      simp only [bind, Except.bind, hc, if_true, g1, g2, writeRecordTo2_eq, pure, Except.pure]
      unfold Rec.info Rec.wire
      simp only [zeros, List.length_append, List.append_assoc]

theorem writeAll_eq (codec : Codec) (buf B : List Byte) (js : List Job) (hj : ∀ j ∈ js, j.Ok codec) :
    ∃ rs : List Rec, (∀ r ∈ rs, r.Ok) ∧ rs.length = js.length ∧ writeAll codec buf { bytes := B, pos := B.length } js =
      .ok ((infosFrom B.length rs).zip (rs.map fun r => r.header ++ r.data), { bytes := B ++ fileOf rs, pos := (B ++ fileOf rs).length }) ∧
      rs.map (fun r => (r.name, r.opts)) = js.map (fun j => (j.name, setCompression j.opts j.compress)) := by
  induction js generalizing B with
  | nil => exact ⟨[], (by simp), rfl, (by simp [writeAll, fileOf_nil, infosFrom]), rfl⟩
  | cons j js ih =>
    obtain ⟨r, h1, h2, h3, h4⟩ := writeJob_eq codec buf B j (hj j (by simp))
    obtain ⟨rs, g1, g2, g3, g4⟩ := ih (B ++ r.wire) (fun j' h' => hj j' (by simp [h']))
    refine ⟨r :: rs, ?_, by simp [g2], ?_, by simp [g4, h3, h4]⟩
    · intro r' hr'
      rcases List.mem_cons.1 hr' with rfl | hr'
      · exact h1
      · exact g1 r' hr'
    · unfold writeAll
      simp only [h2, g3, bind, Except.bind, pure, Except.pure]
      simp [infosFrom, fileOf_cons]

/-! ### Reading record after record -/

theorem readAll_eq (rs : List Rec) (hr : ∀ r ∈ rs, r.Ok) (pre buf : List Byte) (fuel : Nat) (hf : rs.length < fuel) (p : Nat) (hp : p = pre.length) :
    readAll fuel (ready (pre ++ fileOf rs) p) buf = ((infosFrom p rs).zip (rs.map fun r => r.header ++ r.data), .eof) := by
  induction rs generalizing pre buf fuel p with
  | nil =>
    cases fuel with
    | zero => simp at hf
    | succ fuel =>
      obtain ⟨b', h⟩ := readRecordInfo_end (pre ++ fileOf []) buf p (by simp [fileOf_nil, hp])
      unfold readAll readRecord
      rw [h]
      rfl
  | cons r rs ih =>
    cases fuel with
    | zero => simp at hf
    | succ fuel =>
      have h1 := readRecord_eq buf pre (List.replicate (padding r.data.length) 0 ++ fileOf rs) r (hr r (by simp)) p hp
      have e : pre ++ r.header ++ r.data ++ (List.replicate (padding r.data.length) 0 ++ fileOf rs) = pre ++ fileOf (r :: rs) := by
        simp [fileOf_cons, Rec.wire]
      rw [e] at h1
      have e2 : pre ++ fileOf (r :: rs) = (pre ++ r.wire) ++ fileOf rs := by simp [fileOf_cons]
      unfold readAll
      rw [h1]
      simp only
      rw [e2, ih (fun r' h' => hr r' (by simp [h'])) _ _ fuel (by simpa using hf) _ (by simp [hp])]
      simp [infosFrom]

theorem readRecord_cut (buf pre cut : List Byte) (r : Rec) (hr : r.Ok) (p : Nat) (hp : p = pre.length) (k : Nat)
    (hk : k < r.header.length + r.data.length) (hcut : cut = r.wire.take k) :
    ∃ e q buf', readRecord (ready (pre ++ cut) p) buf = (.error e, failed (pre ++ cut) q, buf') ∧
      (e = .eof ∨ e = .noMarker ∨ e = .badState ∨ e = .ioFailure) ∧ (k < 8 → e = .eof) := by
  have hl := header_length r
  have hb := headerLen_bounds r.name hr.name
  by_cases h : k < r.header.length
  · have hc : r.header = cut ++ r.header.drop k := by
      rw [hcut]; unfold Rec.wire
      rw [List.append_assoc, List.take_append_of_le_length (by omega), List.take_append_drop]
    have hcl : cut.length = k := by
      have := congrArg List.length hc
      simp at this; omega
    obtain ⟨res, q, buf', h1, h2, h3⟩ := readRecordInfo_cut buf pre cut (r.header.drop k) r hr p hp hc (by
      intro h0
      have := congrArg List.length h0
      simp at this; omega)
    unfold readRecord
    rw [h1]
    cases res with
    | error e =>
      refine ⟨e, q, buf', rfl, ?_, ?_⟩
      · rcases h2 e rfl with h | h
        · exact .inl h
        · exact .inr (.inl h)
      · intro h8
        have := h3 (by omega)
        cases this; rfl
    | ok info =>
      refine ⟨.badState, q, buf', rfl, .inr (.inr (.inl rfl)), ?_⟩
      intro h8
      have := h3 (by omega)
      cases this
  · have hc : cut = r.header ++ r.data.take (k - r.header.length) := by
      rw [hcut]; unfold Rec.wire
      rw [List.append_assoc, List.take_append, List.take_of_length_le (by omega), List.take_append_of_le_length (by omega)]
    have hd : (r.data.take (k - r.header.length)).length < r.data.length := by simp; omega
    have h1 := readRecordInfo_eq buf pre (r.data.take (k - r.header.length)) r hr p hp
    obtain ⟨q', b', h2⟩ := readRecordData_cut r.header pre (r.data.take (k - r.header.length)) r p (p + headerLen r.name) hp hd (headerLen r.name)
    rw [List.append_assoc, ← hc] at h1 h2
    unfold readRecord
    rw [h1]
    simp only
    rw [show (r.info p).headerLength = headerLen r.name from rfl, h2]
    refine ⟨.ioFailure, q', b', rfl, by simp, ?_⟩
    omega

/-- Reading the records of a file that was cut. -/
theorem readAll_cut (rs : List Rec) (hr : ∀ r ∈ rs, r.Ok) (pre buf : List Byte) (k fuel : Nat) (hf : rs.length < fuel) (p : Nat) (hp : p = pre.length) :
    ∃ e, readAll fuel (ready (pre ++ (fileOf rs).take k) p) buf =
        ((infosFrom p (contained k rs)).zip ((contained k rs).map fun r => r.header ++ r.data), e) ∧
      (e = .eof ∨ e = .noMarker ∨ e = .badState ∨ e = .ioFailure) := by
  induction rs generalizing pre buf k fuel p with
  | nil =>
    cases fuel with
    | zero => simp at hf
    | succ fuel =>
      obtain ⟨b', h⟩ := readRecordInfo_end (pre ++ (fileOf []).take k) buf p (by simp [fileOf_nil, hp])
      unfold readAll readRecord
      rw [h]
      exact ⟨_, rfl, .inl rfl⟩
  | cons r rs ih =>
    cases fuel with
    | zero => simp at hf
    | succ fuel =>
      have hr1 := hr r (by simp)
      have hlen := wire_length r
      have hl := header_length r
      unfold contained
      by_cases hk : r.header.length + r.data.length ≤ k
      · rw [if_pos hk]
        unfold readAll
        have e : (fileOf (r :: rs)).take k = r.header ++ r.data ++ (List.replicate (padding r.data.length) 0 ++ fileOf rs).take (k - (r.header.length + r.data.length)) := by
          rw [show fileOf (r :: rs) = (r.header ++ r.data) ++ (List.replicate (padding r.data.length) 0 ++ fileOf rs) by simp [fileOf_cons, Rec.wire]]
          rw [List.take_append, List.take_of_length_le (by simpa using hk), List.length_append]
        have h1 := readRecord_eq buf pre ((List.replicate (padding r.data.length) 0 ++ fileOf rs).take (k - (r.header.length + r.data.length))) r hr1 p hp
        rw [List.append_assoc, List.append_assoc, ← List.append_assoc r.header, ← e] at h1
        rw [h1]
        simp only
        by_cases hw : r.wire.length ≤ k
        · have e2 : pre ++ (fileOf (r :: rs)).take k = (pre ++ r.wire) ++ (fileOf rs).take (k - r.wire.length) := by
            rw [fileOf_cons, List.take_append, List.take_of_length_le hw]; simp
          obtain ⟨er, g1, g2⟩ := ih (fun r' h' => hr r' (by simp [h'])) (pre ++ r.wire) (r.header ++ r.data) (k - r.wire.length) fuel (by simpa using hf)
            (p + r.wire.length) (by simp [hp])
          rw [e2, g1]
          exact ⟨er, by simp [infosFrom], g2⟩
        · have hnil : contained (k - r.wire.length) rs = [] := by
            rw [show k - r.wire.length = 0 by omega]
            cases rs with
            | nil => rfl
            | cons r2 rs =>
              unfold contained
              rw [if_neg]
              have := header_length r2
              have h24 : 24 ≤ headerLen r2.name := by unfold headerLen; omega
              omega
          obtain ⟨b', h⟩ := readRecordInfo_end (pre ++ (fileOf (r :: rs)).take k) (r.header ++ r.data) (p + r.wire.length) (by
            simp only [List.length_append, List.length_take, hp]; omega)
          cases fuel with
          | zero => simp at hf
          | succ fuel =>
            unfold readAll readRecord
            rw [h, hnil]
            exact ⟨.eof, rfl, .inl rfl⟩
      · rw [if_neg hk]
        have e : (fileOf (r :: rs)).take k = r.wire.take k := by
          rw [fileOf_cons, List.take_append_of_le_length (by omega)]
        obtain ⟨er, q, b', h1, h2, -⟩ := readRecord_cut buf pre (r.wire.take k) r hr1 p hp k (by omega) rfl
        unfold readAll
        rw [e, h1]
        exact ⟨er, rfl, h2⟩

end Sio
