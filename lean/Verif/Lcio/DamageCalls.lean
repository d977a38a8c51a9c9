import Verif.Lcio.DamageAccess
/-
Lemmas for C74 and C75: the calls of a reader on arbitrary files.
-/
namespace Lcio
open Sio Spec

/-- A reader is on one of its files. -/
structure OnFile (files : List (Str × List Byte)) (r : Reader) : Prop where
  list : r.files = files
  index : r.index < files.length
  stream : ∃ f ∈ files, r.stream.bytes = f.2

/-- A call leaves the reader on one of its files, and what went wrong is a fault of a file. -/
structure Safe {α : Type} (cfg : RConfig) (files : List (Str × List Byte)) (res : Except Err α) (r : Reader) : Prop where
  on : OnFile files r
  ub : res = .error .ub → ∃ f ∈ files, Danger cfg f.2
  ends : res = .error .diverge → ∃ f ∈ files, Stuck cfg f.2

theorem safe_ok {α : Type} {cfg : RConfig} {files : List (Str × List Byte)} {a : α} {r : Reader} (h : OnFile files r) : Safe cfg files (.ok a) r :=
  ⟨h, (fun h => nomatch h), fun h => nomatch h⟩

theorem safe_err {α β : Type} {cfg : RConfig} {files : List (Str × List Byte)} {e : Err} {r r' : Reader} (h : Safe cfg files (.error e : Except Err α) r) (hr : OnFile files r') :
    Safe cfg files (.error e : Except Err β) r' :=
  ⟨hr, fun h' => h.ub (by cases h'; rfl), fun h' => h.ends (by cases h'; rfl)⟩

theorem openFile_any (cfg : RConfig) (hc : SafeCodec cfg.codec) {files : List (Str × List Byte)} (r : Reader) (h1 : r.files = files) (h2 : r.index < files.length)
    {f : Str × List Byte} (hf : f ∈ files) : Safe cfg files (r.openFile cfg f.2).1 (r.openFile cfg f.2).2 ∧ (r.openFile cfg f.2).2.index = r.index := by
  unfold Reader.openFile
  simp only
  split
  · have h := createEventMap_any cfg hc f.2 r.ra { bytes := f.2 } rfl
    split
    · rename_i e s ra he
      rw [he] at h
      exact ⟨⟨⟨h1, h2, f, hf, h.bytes⟩, fun h' => ⟨f, hf, h.ub (by cases h'; rfl)⟩, fun h' => ⟨f, hf, h.ends (by cases h'; rfl)⟩⟩, rfl⟩
    · rename_i b s ra he
      rw [he] at h
      exact ⟨safe_ok ⟨h1, h2, f, hf, h.bytes⟩, rfl⟩
  · exact ⟨safe_ok ⟨h1, h2, f, hf, rfl⟩, rfl⟩

theorem nextFile_any (cfg : RConfig) (hc : SafeCodec cfg.codec) {files : List (Str × List Byte)} (r : Reader) (h : OnFile files r) (hn : r.hasNext = true) :
    Safe cfg files (r.nextFile cfg).1 (r.nextFile cfg).2 ∧ (r.nextFile cfg).2.index = r.index + 1 := by
  have hi : r.index + 1 < files.length := by rw [← h.list]; simpa [Reader.hasNext] using hn
  unfold Reader.nextFile
  simp only [Reader.close, h.list]
  rw [List.getElem?_eq_getElem hi]
  exact openFile_any cfg hc { files := files, index := r.index + 1, stream := r.stream, readMap := false, ra := r.ra.clear, buf := r.buf } rfl hi (List.getElem_mem hi)

theorem recordFuel_enough (s : IStream) : s.bytes.length + 1 ≤ s.pos + recordFuel s ∧ 0 < recordFuel s := by
  unfold recordFuel; omega

theorem readNextEventLoop_any (cfg : RConfig) (hc : SafeCodec cfg.codec) {files : List (Str × List Byte)} : ∀ fuel (r : Reader), OnFile files r → files.length < r.index + fuel →
    Safe cfg files (r.readNextEventLoop cfg fuel).1 (r.readNextEventLoop cfg fuel).2
  | 0, r, h, hf => absurd h.index (by omega)
  | fuel+1, r, h, hf => by
    obtain ⟨f, hfm, hfs⟩ := h.stream
    obtain ⟨q1, q2⟩ := recordFuel_enough r.stream
    obtain ⟨k1, k2, k3, k4⟩ := readRecords_any (fun (st : EventState) i => (st, isEventRecord i)) (eventProcessor cfg) (fun st => EvInv cfg f.2 st.hdr st.evt)
      (Danger cfg f.2) (Stuck cfg f.2) f.2 (fun st i h => h) (fun st i data p hI hst h1 h2 => eventProcessor_any cfg hc f.2 st i data p hI hst h1 h2)
      (recordFuel r.stream) {} r.stream r.buf ⟨(fun h hh => nomatch hh), fun h hh => nomatch hh⟩ hfs
    have k4 := k4 q1 q2
    unfold Reader.readNextEventLoop
    split
    · rename_i st s buf he
      rw [he] at k1 k2
      have hon : OnFile files { r with stream := s, buf := buf } := ⟨h.list, h.index, f, hfm, k1⟩
      simp only
      split
      · exact safe_ok hon
      · rename_i e hev
        split
        · rename_i err hfin
          refine ⟨hon, fun h => ⟨f, hfm, ?_⟩, fun h => absurd (by cases h; exact hfin) (finishEvent_ne_diverge cfg e)⟩
          cases h
          rw [hev] at k2
          exact finish_danger cfg k2 hfin
        · exact safe_ok hon
    · rename_i st s buf he
      rw [he] at k1
      have hon : OnFile files { r with stream := s, buf := buf } := ⟨h.list, h.index, f, hfm, k1⟩
      simp only
      split
      · rename_i hn
        obtain ⟨n1, n2⟩ := nextFile_any cfg hc _ hon hn
        split
        · rename_i e r1 hne
          rw [hne] at n1
          exact safe_err n1 n1.on
        · rename_i r1 hne
          rw [hne] at n1 n2
          simp only at n2
          have ih := readNextEventLoop_any cfg hc fuel r1 n1.on (by omega)
          split
          · rename_i r2 hr2
            rw [hr2] at ih
            exact safe_ok ih.on
          · exact ih
      · exact safe_ok hon
    · rename_i st e s buf _ he
      rw [he] at k1 k3 k4
      have hon : OnFile files { r with stream := s, buf := buf } := ⟨h.list, h.index, f, hfm, k1⟩
      refine ⟨hon, fun h => ⟨f, hfm, ?_⟩, fun h => ⟨f, hfm, ?_⟩⟩
      · rcases k3 (by cases h; rfl) with h | h
        · exact .recordHeader h
        · exact h
      · rcases k4 (by cases h; rfl) with h | h
        · exact .record h
        · exact h

theorem readNextEvent_any (cfg : RConfig) (hc : SafeCodec cfg.codec) {files : List (Str × List Byte)} (r : Reader) (h : OnFile files r) :
    Safe cfg files (r.readNextEvent cfg).1 (r.readNextEvent cfg).2 :=
  readNextEventLoop_any cfg hc _ r h (by rw [h.list]; omega)

theorem fileName_any {files : List (Str × List Byte)} (r : Reader) (h : OnFile files r) : ∃ n, r.fileName = .ok n := by
  unfold Reader.fileName
  rw [h.list, List.getElem?_eq_getElem h.index]
  exact ⟨_, rfl⟩

theorem runProcessor_any (cfg : RConfig) (hc : SafeCodec cfg.codec) (file : List Byte) (n : Str) (st : Option RunHeader) (i : RecordInfo) (data : List Byte) (p : Nat)
    (hn : i.name = runRecordName) (hst : HeldAt file p i data) (h1 : i.dataLength < 2 ^ 32) (h2 : i.uncompressedLength < 2 ^ 32) :
    ((runProcessor cfg (.ok n) st i data).2 = .error .ub → Danger cfg file) ∧ ((runProcessor cfg (.ok n) st i data).2 = .error .diverge → Stuck cfg file) := by
  obtain ⟨d1, d2⟩ := decodeRun_any cfg hc file n i data p hn hst h1 h2
  unfold runProcessor
  simp only
  split
  · rename_i e he
    exact ⟨fun h => d1 (by cases h; exact he), fun h => d2 (by cases h; exact he)⟩
  · exact ⟨(fun h => nomatch h), fun h => nomatch h⟩

/-- `readRecords_any` with what the validator says. -/
theorem readRecords_valid {σ : Type} (valid : RecordInfo → Bool) (func : σ → RecordInfo → List Byte → σ × Except Err Bool) (fuel : Nat) (st : σ) (s : IStream) (buf : List Byte)
    (c : Err) : readRecords (fun st i => (st, valid i)) func fuel st s buf =
      readRecords (fun st i => (st, valid i)) (fun st i data => if valid i then func st i data else (st, .error c)) fuel st s buf := by
  induction fuel generalizing st s buf with
  | zero => rfl
  | succ fuel ih =>
    unfold readRecords
    split
    · rfl
    · rename_i info s1 b1 h1
      cases hv : valid info with
      | false => exact ih _ _ _
      | true =>
        simp only [if_true]
        split
        · rfl
        · split
          · rfl
          · split
            · rfl
            · exact ih _ _ _
            · rfl

theorem readNextRunLoop_any (cfg : RConfig) (hc : SafeCodec cfg.codec) {files : List (Str × List Byte)} : ∀ fuel (r : Reader), OnFile files r → files.length < r.index + fuel →
    Safe cfg files (r.readNextRunLoop cfg fuel).1 (r.readNextRunLoop cfg fuel).2
  | 0, r, h, hf => absurd h.index (by omega)
  | fuel+1, r, h, hf => by
    obtain ⟨f, hfm, hfs⟩ := h.stream
    obtain ⟨q1, q2⟩ := recordFuel_enough r.stream
    obtain ⟨n, hname⟩ := fileName_any r h
    obtain ⟨k1, k2, k3, k4⟩ := readRecords_any (fun (st : Option RunHeader) i => (st, i.name == runRecordName))
      (fun st i data => if i.name == runRecordName then runProcessor cfg r.fileName st i data else (st, .error .eof)) (fun _ => True)
      (Danger cfg f.2) (Stuck cfg f.2) f.2 (fun st i h => h) (fun st i data p hI hst h1 h2 => by
        refine ⟨trivial, ?_⟩
        split
        · rename_i hn
          rw [hname]
          exact runProcessor_any cfg hc f.2 n st i data p (by simpa using hn) hst h1 h2
        · exact ⟨(fun h => nomatch h), fun h => nomatch h⟩)
      (recordFuel r.stream) none r.stream r.buf trivial hfs
    rw [← readRecords_valid (fun i => i.name == runRecordName)] at k1 k3 k4
    have k4 := k4 q1 q2
    unfold Reader.readNextRunLoop
    split
    · rename_i st s buf he
      rw [he] at k1
      exact safe_ok ⟨h.list, h.index, f, hfm, k1⟩
    · rename_i st s buf he
      rw [he] at k1
      have hon : OnFile files { r with stream := s, buf := buf } := ⟨h.list, h.index, f, hfm, k1⟩
      simp only
      split
      · rename_i hn
        obtain ⟨n1, n2⟩ := nextFile_any cfg hc _ hon hn
        split
        · rename_i e r1 hne
          rw [hne] at n1
          exact safe_err n1 n1.on
        · rename_i r1 hne
          rw [hne] at n1 n2
          simp only at n2
          have ih := readNextRunLoop_any cfg hc fuel r1 n1.on (by omega)
          split
          · rename_i r2 hr2
            rw [hr2] at ih
            exact safe_ok ih.on
          · exact ih
      · exact safe_ok hon
    · rename_i st e s buf _ he
      rw [he] at k1 k3 k4
      have hon : OnFile files { r with stream := s, buf := buf } := ⟨h.list, h.index, f, hfm, k1⟩
      refine ⟨hon, fun h => ⟨f, hfm, ?_⟩, fun h => ⟨f, hfm, ?_⟩⟩
      · rcases k3 (by cases h; rfl) with h | h
        · exact .recordHeader h
        · exact h
      · rcases k4 (by cases h; rfl) with h | h
        · exact .record h
        · exact h

theorem readNextRunHeader_any (cfg : RConfig) (hc : SafeCodec cfg.codec) {files : List (Str × List Byte)} (r : Reader) (h : OnFile files r) :
    Safe cfg files (r.readNextRunHeader cfg).1 (r.readNextRunHeader cfg).2 :=
  readNextRunLoop_any cfg hc _ r h (by rw [h.list]; omega)

theorem skipNEvents_any (cfg : RConfig) {files : List (Str × List Byte)} (r : Reader) (n : Int) (h : OnFile files r) :
    Safe cfg files (r.skipNEvents n).1 (r.skipNEvents n).2 := by
  obtain ⟨f, hfm, hfs⟩ := h.stream
  obtain ⟨q1, q2⟩ := recordFuel_enough r.stream
  unfold Reader.skipNEvents
  split
  · exact safe_ok h
  · simp only [skipRecords]
    obtain ⟨k1, k2, k3, k4⟩ := skipRecordsLoop_any (fun (c : Nat) (i : RecordInfo) => ((if i.name = headerRecordName then c + 1 else c), decide (((if i.name = headerRecordName then c + 1 else c : Nat) : Int) < n)))
      f.2 (recordFuel r.stream) 0 r.stream (zeros maxRecordInfoLen) hfs
    have k3 := k3 q1 q2
    split
    · rename_i c s he
      rw [he] at k1
      exact safe_ok ⟨h.list, h.index, f, hfm, k1⟩
    · rename_i c e s _ he
      rw [he] at k1 k2 k3
      exact ⟨⟨h.list, h.index, f, hfm, k1⟩, fun h => ⟨f, hfm, .recordHeader (k2 (by cases h; rfl))⟩, fun h => ⟨f, hfm, .record (k3 (by cases h; rfl))⟩⟩
    · rename_i c s he
      rw [he] at k1
      simp only at k1
      obtain ⟨p1, p2⟩ := recordFuel_enough s
      unfold skipNRecords skipRecords
      obtain ⟨j1, j2, j3, j4⟩ := skipRecordsLoop_any (fun (c : Nat) _ => (c + 1, decide (c + 1 < 1))) f.2 (recordFuel s) 0 s (zeros maxRecordInfoLen) k1
      have j3 := j3 p1 p2
      generalize hx : (skipRecordsLoop (fun (c : Nat) _ => (c + 1, decide (c + 1 < 1))) (recordFuel s) 0 s (zeros maxRecordInfoLen)) = x at j1 j2 j3
      obtain ⟨c2, e2, s2⟩ := x
      simp only at j1 j2 j3 ⊢
      split
      · rename_i s3 he3
        cases he3
        exact safe_ok ⟨h.list, h.index, f, hfm, j1⟩
      · rename_i e s3 _ he3
        cases he3
        exact ⟨⟨h.list, h.index, f, hfm, j1⟩, fun h => ⟨f, hfm, .recordHeader (j2 (by cases h; rfl))⟩, fun h => ⟨f, hfm, .record (j3 (by cases h; rfl))⟩⟩
      · rename_i s3 he3
        cases he3
        exact safe_ok ⟨h.list, h.index, f, hfm, j1⟩

theorem needMap_any (cfg : RConfig) (hc : SafeCodec cfg.codec) {files : List (Str × List Byte)} (r : Reader) (h : OnFile files r) :
    Safe cfg files (r.needMap cfg).1 (r.needMap cfg).2 := by
  obtain ⟨f, hfm, hfs⟩ := h.stream
  unfold Reader.needMap
  split
  · exact safe_ok h
  · have hm := createEventMap_any cfg hc f.2 r.ra r.stream hfs
    split
    · rename_i e s ra he
      rw [he] at hm
      exact ⟨⟨h.list, h.index, f, hfm, hm.bytes⟩, fun h => ⟨f, hfm, hm.ub (by cases h; rfl)⟩, fun h => ⟨f, hfm, hm.ends (by cases h; rfl)⟩⟩
    · rename_i b s ra he
      rw [he] at hm
      exact safe_ok ⟨h.list, h.index, f, hfm, hm.bytes⟩

theorem seekTo_any (cfg : RConfig) {files : List (Str × List Byte)} (r : Reader) (pos : W64) (h : OnFile files r) : Safe cfg files (r.seekTo pos).1 (r.seekTo pos).2 := by
  obtain ⟨f, hfm, hfs⟩ := h.stream
  unfold Reader.seekTo
  split
  · exact ⟨⟨h.list, h.index, f, hfm, hfs⟩, (fun h => nomatch h), fun h => nomatch h⟩
  · simp only
    have hb : (r.stream.seekg pos.toNat).bytes = f.2 := (seekg_bytes _ _).trans hfs
    split
    · exact safe_ok ⟨h.list, h.index, f, hfm, hb⟩
    · exact ⟨⟨h.list, h.index, f, hfm, hb⟩, (fun h => nomatch h), fun h => nomatch h⟩

theorem readRunHeader_any (cfg : RConfig) (hc : SafeCodec cfg.codec) {files : List (Str × List Byte)} (r : Reader) (run : W32) (h : OnFile files r) :
    Safe cfg files (r.readRunHeader cfg run).1 (r.readRunHeader cfg run).2 := by
  unfold Reader.readRunHeader
  simp only
  split
  · split
    · have hs := seekTo_any cfg r (r.ra.map.getPosition ⟨run, -1⟩) h
      split
      · rename_i e r1 he
        rw [he] at hs
        exact safe_err hs hs.on
      · rename_i r1 he
        rw [he] at hs
        exact readNextRunHeader_any cfg hc r1 hs.on
    · exact safe_ok h
  · exact safe_ok h

theorem readEvent_any (cfg : RConfig) (hc : SafeCodec cfg.codec) {files : List (Str × List Byte)} (r : Reader) (run evt : W32) (h : OnFile files r) :
    Safe cfg files (r.readEvent cfg run evt).1 (r.readEvent cfg run evt).2 := by
  unfold Reader.readEvent
  simp only
  split
  · split
    · have hs := seekTo_any cfg r (r.ra.map.getPosition ⟨run, evt⟩) h
      split
      · rename_i e r1 he
        rw [he] at hs
        exact safe_err hs hs.on
      · rename_i r1 he
        rw [he] at hs
        exact readNextEvent_any cfg hc r1 hs.on
    · exact safe_ok h
  · obtain ⟨f, hfm, hfs⟩ := h.stream
    obtain ⟨q1, q2⟩ := recordFuel_enough r.stream
    obtain ⟨k1, k2, k3, k4⟩ := readRecords_any (fun (st : EventState) i => (st, isEventRecord i)) (searchProcessor cfg run evt) (fun st => EvInv cfg f.2 st.hdr st.evt)
      (Danger cfg f.2) (Stuck cfg f.2) f.2 (fun st i h => h) (fun st i data p hI hst h1 h2 => searchProcessor_any cfg hc f.2 run evt st i data p hI hst h1 h2)
      (recordFuel r.stream) {} r.stream r.buf ⟨(fun h hh => nomatch hh), fun h hh => nomatch hh⟩ hfs
    have k4 := k4 q1 q2
    split
    · rename_i st s buf he
      rw [he] at k1 k2
      have hon : OnFile files { r with stream := s, buf := buf } := ⟨h.list, h.index, f, hfm, k1⟩
      split
      · exact safe_ok hon
      · rename_i e hev
        split
        · rename_i err hfin
          refine ⟨hon, fun h => ⟨f, hfm, ?_⟩, fun h => absurd (by cases h; exact hfin) (finishEvent_ne_diverge cfg e)⟩
          cases h
          rw [hev] at k2
          exact finish_danger cfg k2 hfin
        · exact safe_ok hon
    · rename_i st s buf he
      rw [he] at k1
      exact safe_ok ⟨h.list, h.index, f, hfm, k1⟩
    · rename_i st e s buf _ he
      rw [he] at k1 k3 k4
      have hon : OnFile files { r with stream := s, buf := buf } := ⟨h.list, h.index, f, hfm, k1⟩
      refine ⟨hon, fun h => ⟨f, hfm, ?_⟩, fun h => ⟨f, hfm, ?_⟩⟩
      · rcases k3 (by cases h; rfl) with h | h
        · exact .recordHeader h
        · exact h
      · rcases k4 (by cases h; rfl) with h | h
        · exact .record h
        · exact h

theorem deliver_any (cfg : RConfig) : ∀ n i log (e : EventData),
    (Closed e.2 → (deliver cfg log i n e).2 ≠ .error .ub) ∧ (deliver cfg log i n e).2 ≠ .error .diverge
  | 0, i, log, e => ⟨fun _ h => (nomatch h), fun h => (nomatch h)⟩
  | n+1, i, log, e => by
    unfold deliver
    refine ⟨fun hcl => ?_, ?_⟩
    · rcases finishEvent_closed cfg hcl with h | ⟨e', h, hcl'⟩
      · rw [h]; exact fun h => nomatch h
      · rw [h]; exact (deliver_any cfg n (i + 1) _ e').1 hcl'
    · split
      · rename_i err he
        intro h; cases h; exact finishEvent_ne_diverge cfg e he
      · exact (deliver_any cfg n (i + 1) _ _).2

theorem streamProcessor_any (cfg : RConfig) (hc : SafeCodec cfg.codec) (file : List Byte) (n : Str) (listeners : Nat) (maxRecord : Int) (st : StreamState) (i : RecordInfo) (data : List Byte) (p : Nat)
    (hv : isStreamRecord i = true) (hI : EvInv cfg file st.hdr none) (hst : HeldAt file p i data) (h1 : i.dataLength < 2 ^ 32) (h2 : i.uncompressedLength < 2 ^ 32) :
    EvInv cfg file (streamProcessor cfg (.ok n) listeners maxRecord st i data).1.hdr none ∧
    ((streamProcessor cfg (.ok n) listeners maxRecord st i data).2 = .error .ub → Danger cfg file) ∧
    ((streamProcessor cfg (.ok n) listeners maxRecord st i data).2 = .error .diverge → Stuck cfg file) := by
  obtain ⟨hp1, hp2, hp3⟩ := plainData_any hc i data
  unfold streamProcessor
  split
  · rename_i hn
    obtain ⟨d1, d2⟩ := decodeRun_any cfg hc file n i data p hn hst h1 h2
    simp only
    split
    · rename_i e he
      exact ⟨hI, fun h => d1 (by cases h; exact he), fun h => d2 (by cases h; exact he)⟩
    · exact ⟨hI, (fun h => nomatch h), fun h => nomatch h⟩
  · rename_i hnr
    split
    · rename_i e he
      exact ⟨hI, fun h => absurd (by cases h; exact he) hp1, fun h => absurd (by cases h; exact he) hp2⟩
    · rename_i plain hpl
      have hl := hp3 plain (by rw [hst.2.2]; exact h1) h2 hpl
      split
      · rename_i hn
        have hrec : Recorded cfg.codec file headerRecordName plain := ⟨p, i, data, hst, hn, hpl⟩
        obtain ⟨d1, d2⟩ := decodeHeader_any cfg plain hl
        split
        · rename_i e he
          exact ⟨hI, fun h => .header plain cfg.wanted (.inl rfl) hrec (d1 (by cases h; exact he)), fun h => .block _ plain (Or.inl hrec) (d2 (by cases h; exact he))⟩
        · rename_i h he
          refine ⟨⟨fun h' hh => ?_, fun e hh => nomatch hh⟩, (fun h => nomatch h), fun h => nomatch h⟩
          cases hh
          exact ⟨plain, hrec, he⟩
      · rename_i hnh
        have hn : i.name = eventRecordName := by
          unfold isStreamRecord at hv
          simp only [Bool.or_eq_true, beq_iff_eq] at hv
          rcases hv with (hv | hv) | hv
          · exact absurd hv hnr
          · exact absurd hv hnh
          · exact hv
        have hrec : Recorded cfg.codec file eventRecordName plain := ⟨p, i, data, hst, hn, hpl⟩
        split
        · exact ⟨hI, (fun h => nomatch h), fun h => nomatch h⟩
        · rename_i hdr hh
          obtain ⟨hdata, hr1, hr2⟩ := hI.hdr hdr hh
          obtain ⟨d1, d2⟩ := decodeCollections_any cfg hdr plain hl
          split
          · rename_i e he
            exact ⟨hI, fun h => danger_of_badCols hr1 hr2 hrec (d1 (by cases h; exact he)), fun h => .block _ plain (Or.inl hrec) (d2 (by cases h; exact he))⟩
          · rename_i cols he
            obtain ⟨l1, l2⟩ := deliver_any cfg listeners 0 st.log (hdr, cols)
            split
            · rename_i log e hd
              rw [hd] at l1 l2
              refine ⟨hI, fun h => ?_, fun h => absurd (by cases h; rfl) l2⟩
              by_cases hw : WrongParent cols
              · exact .parent hdata hdr plain cols hr1 hr2 hrec he hw
              · exact absurd (by cases h; rfl) (l1 (decoded_closed cfg hdr plain he hw))
            · exact ⟨⟨(fun h hh => nomatch hh), fun h hh => nomatch hh⟩, (fun h => nomatch h), fun h => nomatch h⟩

theorem readStreamLoop_any (cfg : RConfig) (hc : SafeCodec cfg.codec) {files : List (Str × List Byte)} (listeners : Nat) : ∀ fuel maxRecord (r : Reader), OnFile files r → files.length < r.index + fuel →
    Safe cfg files (r.readStreamLoop cfg listeners fuel maxRecord).2.1 (r.readStreamLoop cfg listeners fuel maxRecord).2.2
  | 0, _, r, h, hf => absurd h.index (by omega)
  | fuel+1, maxRecord, r, h, hf => by
    obtain ⟨f, hfm, hfs⟩ := h.stream
    obtain ⟨q1, q2⟩ := recordFuel_enough r.stream
    obtain ⟨n, hname⟩ := fileName_any r h
    obtain ⟨k1, k2, k3, k4⟩ := readRecords_any (fun (st : StreamState) i => (st, isStreamRecord i))
      (fun st i data => if isStreamRecord i then streamProcessor cfg r.fileName listeners maxRecord st i data else (st, .error .eof)) (fun st => EvInv cfg f.2 st.hdr none)
      (Danger cfg f.2) (Stuck cfg f.2) f.2 (fun st i h => h) (fun st i data p hI hst h1 h2 => by
        split
        · rename_i hn
          rw [hname]
          exact streamProcessor_any cfg hc f.2 n listeners maxRecord st i data p hn hI hst h1 h2
        · exact ⟨hI, (fun h => nomatch h), fun h => nomatch h⟩)
      (recordFuel r.stream) {} r.stream r.buf ⟨(fun h hh => nomatch hh), fun h hh => nomatch hh⟩ hfs
    rw [← readRecords_valid isStreamRecord] at k1 k2 k3 k4
    have k4 := k4 q1 q2
    unfold Reader.readStreamLoop
    split
    · rename_i st s buf he
      rw [he] at k1
      exact safe_ok ⟨h.list, h.index, f, hfm, k1⟩
    · rename_i st s buf he
      rw [he] at k1
      have hon : OnFile files { r with stream := s, buf := buf } := ⟨h.list, h.index, f, hfm, k1⟩
      simp only
      split
      · rename_i hn
        obtain ⟨n1, n2⟩ := nextFile_any cfg hc _ hon hn
        split
        · rename_i e r1 hne
          rw [hne] at n1
          exact safe_err n1 n1.on
        · rename_i r1 hne
          rw [hne] at n1 n2
          simp only at n2
          exact readStreamLoop_any cfg hc listeners fuel _ r1 n1.on (by omega)
      · split
        · exact safe_ok hon
        · exact ⟨hon, (fun h => nomatch h), fun h => nomatch h⟩
    · rename_i st e s buf _ he
      rw [he] at k1 k3 k4
      have hon : OnFile files { r with stream := s, buf := buf } := ⟨h.list, h.index, f, hfm, k1⟩
      refine ⟨hon, fun h => ⟨f, hfm, ?_⟩, fun h => ⟨f, hfm, ?_⟩⟩
      · rcases k3 (by cases h; rfl) with h | h
        · exact .recordHeader h
        · exact h
      · rcases k4 (by cases h; rfl) with h | h
        · exact .record h
        · exact h

theorem readStream_any (cfg : RConfig) (hc : SafeCodec cfg.codec) {files : List (Str × List Byte)} (r : Reader) (listeners : Nat) (maxRecord : Int) (h : OnFile files r) :
    Safe cfg files (r.readStream cfg listeners maxRecord).2.1 (r.readStream cfg listeners maxRecord).2.2 :=
  readStreamLoop_any cfg hc listeners _ maxRecord r h (by rw [h.list]; omega)

theorem openFiles_any (cfg : RConfig) (hc : SafeCodec cfg.codec) (direct : Bool) (files : List (Str × List Byte)) (h : files ≠ []) :
    Safe cfg files (Reader.openFiles cfg direct files).1 (Reader.openFiles cfg direct files).2 := by
  cases files with
  | nil => exact absurd rfl h
  | cons f fs =>
    exact (openFile_any cfg hc { files := f :: fs, stream := { bytes := [], isOpen := false }, readMap := direct } rfl (Nat.succ_pos _) List.mem_cons_self).1

theorem reached_on (cfg : RConfig) (hc : SafeCodec cfg.codec) {files : List (Str × List Byte)} {r : Reader} (h : Reached cfg files r) : OnFile files r := by
  induction h with
  | opened direct h => exact (openFiles_any cfg hc direct files h).on
  | nextEvent _ ih => exact (readNextEvent_any cfg hc _ ih).on
  | nextRun _ ih => exact (readNextRunHeader_any cfg hc _ ih).on
  | skip _ n ih => exact (skipNEvents_any cfg _ n ih).on
  | numbers _ ih => exact (needMap_any cfg hc _ ih).on
  | run _ run ih => exact (readRunHeader_any cfg hc _ run ih).on
  | event _ run evt ih => exact (readEvent_any cfg hc _ run evt ih).on
  | stream _ l n ih => exact (readStream_any cfg hc _ l n ih).on
  | close _ ih => exact ⟨ih.list, ih.index, ih.stream⟩

end Lcio
