import Verif.Lcio.DamageCalls
import Verif.Props.SessionCases
/-
C74: what files can lead to undefined behaviour of a reader. C75: on what files a reader can loop forever.
-/
namespace Props
open Sio Spec Lcio

/-- **C74** for files that have none of the faults listed in `Danger`: whatever else is wrong with them, opening them and every call made afterwards, in any
order and also after calls that threw exceptions, gives a result or throws an exception. -/
theorem C74_reading_partial (cfg : RConfig) (hc : SafeCodec cfg.codec) (files : List (Str × List Byte)) (hne : files ≠ [])
    (safe : ∀ f ∈ files, ¬ Danger cfg f.2) :
    (∀ direct, (Reader.openFiles cfg direct files).1 ≠ .error .ub) ∧
    ∀ r, Reached cfg files r →
      (r.readNextEvent cfg).1 ≠ .error .ub ∧ (r.readNextRunHeader cfg).1 ≠ .error .ub ∧ (∀ n, (r.skipNEvents n).1 ≠ .error .ub) ∧
      (r.needMap cfg).1 ≠ .error .ub ∧ (∀ run, (r.readRunHeader cfg run).1 ≠ .error .ub) ∧ (∀ run evt, (r.readEvent cfg run evt).1 ≠ .error .ub) ∧
      ∀ listeners maxRecord, (r.readStream cfg listeners maxRecord).2.1 ≠ .error .ub := by
  have no : ¬ ∃ f ∈ files, Danger cfg f.2 := fun ⟨f, hf, h⟩ => safe f hf h
  refine ⟨fun direct h => no ((openFiles_any cfg hc direct files hne).ub h), fun r hr => ?_⟩
  have on := reached_on cfg hc hr
  exact ⟨fun h => no ((readNextEvent_any cfg hc r on).ub h), fun h => no ((readNextRunHeader_any cfg hc r on).ub h),
    fun n h => no ((skipNEvents_any cfg r n on).ub h), fun h => no ((needMap_any cfg hc r on).ub h), fun run h => no ((readRunHeader_any cfg hc r run on).ub h),
    fun run evt h => no ((readEvent_any cfg hc r run evt on).ub h), fun l n h => no ((readStream_any cfg hc r l n on).ub h)⟩

/-- **C75** for files that have none of the faults listed in `Stuck`: whatever else is wrong with them, opening them and every call made afterwards ends. -/
theorem C75_reading_partial (cfg : RConfig) (hc : SafeCodec cfg.codec) (files : List (Str × List Byte)) (hne : files ≠ [])
    (safe : ∀ f ∈ files, ¬ Stuck cfg f.2) :
    (∀ direct, (Reader.openFiles cfg direct files).1 ≠ .error .diverge) ∧
    ∀ r, Reached cfg files r →
      (r.readNextEvent cfg).1 ≠ .error .diverge ∧ (r.readNextRunHeader cfg).1 ≠ .error .diverge ∧ (∀ n, (r.skipNEvents n).1 ≠ .error .diverge) ∧
      (r.needMap cfg).1 ≠ .error .diverge ∧ (∀ run, (r.readRunHeader cfg run).1 ≠ .error .diverge) ∧
      (∀ run evt, (r.readEvent cfg run evt).1 ≠ .error .diverge) ∧
      ∀ listeners maxRecord, (r.readStream cfg listeners maxRecord).2.1 ≠ .error .diverge := by
  have no : ¬ ∃ f ∈ files, Stuck cfg f.2 := fun ⟨f, hf, h⟩ => safe f hf h
  refine ⟨fun direct h => no ((openFiles_any cfg hc direct files hne).ends h), fun r hr => ?_⟩
  have on := reached_on cfg hc hr
  exact ⟨fun h => no ((readNextEvent_any cfg hc r on).ends h), fun h => no ((readNextRunHeader_any cfg hc r on).ends h),
    fun n h => no ((skipNEvents_any cfg r n on).ends h), fun h => no ((needMap_any cfg hc r on).ends h), fun run h => no ((readRunHeader_any cfg hc r run on).ends h),
    fun run evt h => no ((readEvent_any cfg hc r run evt on).ends h), fun l n h => no ((readStream_any cfg hc r l n on).ends h)⟩

/-! ## Damaged files -/

/-- A codec that stores the data as they are and keeps to the buffer. -/
def cutCodec : Codec := { compress := fun d => .ok d, uncompress := fun d n => .ok (d.take n) }
def cutCfg : RConfig := { codec := cutCodec, std := ieee }

theorem cutCodec_careful : SafeCodec cutCodec := by
  refine ⟨fun _ _ h => ?_, fun _ _ h => ?_, fun d n out h => ?_⟩
  · cases h
  · cases h
  · cases h; exact List.length_take_le _ _

/-- The bytes of a record. -/
def recordBytes (name : Str) (bs : List WBlock) : List Byte := match writeRecord name [] bs 0 with
  | .ok (_, r) => r
  | .error _ => []

def isUb {α : Type} : Except Err α → Bool
  | .error .ub => true
  | _ => false
theorem isUb_iff {α : Type} {x : Except Err α} : isUb x = true ↔ x = .error .ub := by
  unfold isUb; split <;> simp_all
def isDiverge {α : Type} : Except Err α → Bool
  | .error .diverge => true
  | _ => false
theorem isDiverge_iff {α : Type} {x : Except Err α} : isDiverge x = true ↔ x = .error .diverge := by
  unfold isDiverge; split <;> simp_all

/-- What `readNextEvent` gives for a file. -/
def firstEvent (file : List Byte) : Except Err (Option EventData) := ((Reader.openFiles cutCfg false [(str "f", file)]).2.readNextEvent cutCfg).1

/-- An event with one collection of the given type and bytes. -/
def eventFile (type : Str) (content : List Item) : List Byte :=
  recordBytes headerRecordName [EventHeader.block [] { cols := [(str "A", { type := type, flag := 0 })] }] ++ recordBytes eventRecordName [⟨str "A", blockVersion, content⟩]

/-- **C74** fails for record headers that are too long: see **C20**. -/
theorem C74_fails_for_record_header :
    firstEvent ([0, 0, 0, 200, 0xab, 0xad, 0xca, 0xfe] ++ List.replicate 200 0) = .error .ub := isUb_iff.mp (by decide +kernel)

/-- An event with a collection of a type that does not exist. -/
def fooFile : List Byte := eventFile (str "Foo") (w32 0)
/-- **C74** fails: there is no handler for the collection, and the null pointer is used to read it. -/
theorem C74_fails_for_unknown_type : firstEvent fooFile = .error .ub := isUb_iff.mp (by decide +kernel)

/-- An event with a collection of generic objects that says that each of them has 2^30 integers: 2^32 bytes. -/
def longFile : List Byte := eventFile (str "LCGenericObject") (w32 0x80000000 ++ Params.write {} ++ w32 0x40000000 ++ w32 0 ++ w32 0 ++ w32 1)
/-- **C74** fails: the check whether so many bytes are left is made with 32 bits and passes. -/
theorem C74_fails_for_overlong_vector : firstEvent longFile = .error .ub := isUb_iff.mp (by decide +kernel)

/-- An event with a particle whose parent is not in the event. -/
def orphanFile : List Byte := eventFile (str "MCParticle") ((mcCol [(11, [12])]).write ieee)
/-- **C74** fails: the daughter is added to a parent that does not exist. -/
theorem C74_fails_for_lost_parent : firstEvent orphanFile = .error .ub := isUb_iff.mp (by decide +kernel)

/-- An event with a collection of reconstructed particles of version 1.2; its only particle says that it belongs to two MCParticles. -/
def oldFile : List Byte :=
  recordBytes headerRecordName [EventHeader.block [] { cols := [(str "A", { type := str "ReconstructedParticle", flag := 0 })] }] ++
  recordBytes eventRecordName [⟨str "A", 0x00010002, w32 0 ++ Params.write {} ++ w32 1 ++ w32 0 ++ w64s [0, 0, 0] ++ w64 0 ++ w32s (List.replicate 10 0) ++
    w64 0 ++ w32 0 ++ w32s [0, 0, 0] ++ w32 0 ++ w32 0 ++ w32 0 ++ w32 0 ++ w32 2 ++ w32s [0, 0] ++ w32s [0, 0] ++ wTag 11⟩]
/-- **C74** fails: two pointers are read into a variable that has room for one. -/
theorem C74_fails_for_old_particles : firstEvent oldFile = .error .ub := isUb_iff.mp (by decide +kernel)

/-- Some record, and the record for random access to the file; it points to the first record, which is not one for random access. -/
def lostFile : List Byte := recordBytes (str "Some") [⟨str "A", blockVersion, w32 0⟩] ++ recordBytes accessName [RandomAccess.block { nextLoc := 0 }]
/-- **C74** fails when the file is opened with direct access: the last element of an empty list is used. -/
theorem C74_fails_for_lost_access : (Reader.openFiles cutCfg true [(str "f", lostFile)]).1 = .error .ub := isUb_iff.mp (by decide +kernel)

/-- A record that says that it has 2^32 - 28 bytes after the 28 bytes of its header. -/
def loopFile : List Byte := [0, 0, 0, 28, 0xab, 0xad, 0xca, 0xfe, 0, 0, 0, 0, 0xff, 0xff, 0xff, 0xe4, 0, 0, 0, 0, 0, 0, 0, 4, 108, 111, 111, 112]
theorem loopFile_info (buf : List Byte) (h : buf = [] ∨ buf = loopFile) : readRecordInfo { bytes := loopFile } buf =
    (.ok { fileStart := 0, fileEnd := 0, headerLength := 28, options := 0, dataLength := 2 ^ 32 - 28, uncompressedLength := 0, name := str "loop" },
      { bytes := loopFile, pos := 28 }, loopFile) := by
  rcases h with rfl | rfl <;> decide +kernel
theorem loopFile_records (fuel : Nat) (buf : List Byte) (h : buf = [] ∨ buf = loopFile) (st : EventState) :
    (readRecords (fun st i => (st, isEventRecord i)) (eventProcessor cutCfg) fuel st { bytes := loopFile } buf).2.1 = .error .diverge := by
  induction fuel generalizing buf with
  | zero => rfl
  | succ fuel ih =>
    unfold readRecords
    rw [loopFile_info buf h]
    exact ih loopFile (.inr rfl)
/-- **C75** fails for records of length zero: however many records are looked at, `readNextEvent` does not get any further. -/
theorem C75_fails_for_zero_record :
    (∀ fuel, (readRecords (fun st i => (st, isEventRecord i)) (eventProcessor cutCfg) fuel {} { bytes := loopFile } []).2.1 = .error .diverge) ∧
    firstEvent loopFile = .error .diverge := ⟨fun fuel => loopFile_records fuel [] (.inl rfl) {}, isDiverge_iff.mp (by decide +kernel)⟩

/-- An access record that says that the one before it is at the place where it is itself. -/
def cycleFile : List Byte := recordBytes (str "Some") [⟨str "A", blockVersion, w32 0⟩] ++ recordBytes accessName [RandomAccess.block { prevLoc := 52 }] ++
  recordBytes accessName [RandomAccess.block { nextLoc := 52 }]
def someBytes : List Byte := recordBytes (str "Some") [⟨str "A", blockVersion, w32 0⟩]
def cycleBytes : List Byte := recordBytes accessName [RandomAccess.block { prevLoc := 52 }]

theorem cycle_access : readRecord { bytes := cycleFile, pos := 52 } someBytes =
    (.ok { fileStart := 52, fileEnd := 188, headerLength := 40, options := 0, dataLength := 96, uncompressedLength := 96, name := accessName },
      { bytes := cycleFile, pos := 188 }, cycleBytes) := by decide +kernel
theorem cycle_some : readRecord { bytes := cycleFile, pos := 0 } cycleBytes =
    (.ok { fileStart := 0, fileEnd := 52, headerLength := 28, options := 0, dataLength := 24, uncompressedLength := 24, name := str "Some" },
      { bytes := cycleFile, pos := 52 }, someBytes) := by decide +kernel
theorem cycle_blocks : accessIn (cycleBytes.drop 40) = some { prevLoc := 52 } := by decide +kernel

theorem readAccessAt_of (m : RaMgr) (s s1 s2 : IStream) (pos : Int) (info : RecordInfo) (buf data : List Byte) (ra : RandomAccess) (h1 : seekStream s pos = (.ok (), s1))
    (h2 : readRecord s1 m.buf = (.ok info, s2, buf)) (h3 : info.name = accessName) (h4 : spanOf buf info.headerLength info.dataLength = .ok data)
    (h5 : accessIn data = some ra) : m.readAccessAt s pos = (.ok true, s2, { m with list := m.list ++ [ra], buf := buf }) := by
  unfold RaMgr.readAccessAt RaMgr.readAccess RaMgr.readAny
  simp only [h1, h2, h4, h3, ne_eq, not_true_eq_false, if_false]
  unfold accessIn at h5
  split at h5
  · cases h5
  · rename_i rs _ _ hb
    simp only [hb]
    cases h5
    rfl

theorem readIndexAt_of (codec : Codec) (m : RaMgr) (s s1 s2 : IStream) (pos : Int) (info : RecordInfo) (buf data : List Byte) (h1 : seekStream s pos = (.ok (), s1))
    (h2 : readRecord s1 m.buf = (.ok info, s2, buf)) (h3 : info.name ≠ indexName) (h4 : spanOf buf info.headerLength info.dataLength = .ok data) :
    m.readIndexAt codec s pos = (.ok false, s2, { m with buf := buf }) := by
  unfold RaMgr.readIndexAt RaMgr.readIndexRecord RaMgr.readAny
  simp only [h1, h2, h4, ne_eq, h3, not_false_eq_true, if_true]

theorem cycle_step (m : RaMgr) (h : m.buf = someBytes) : m.readAccessAt { bytes := cycleFile, pos := 52 } (52 : W64).toInt =
    (.ok true, { bytes := cycleFile, pos := 188 }, { m with list := m.list ++ [{ prevLoc := 52 }], buf := cycleBytes }) :=
  readAccessAt_of m _ { bytes := cycleFile, pos := 52 } _ _ _ _ (cycleBytes.drop 40) _ (by decide +kernel) (by rw [h]; exact cycle_access) rfl (by decide +kernel) cycle_blocks
theorem cycle_index (m : RaMgr) (h : m.buf = cycleBytes) : m.readIndexAt cutCodec { bytes := cycleFile, pos := 188 } (0 : W64).toInt =
    (.ok false, { bytes := cycleFile, pos := 52 }, { m with buf := someBytes }) :=
  readIndexAt_of _ m _ { bytes := cycleFile, pos := 0 } _ _ _ _ (someBytes.drop 28) (by decide +kernel) (by rw [h]; exact cycle_some) (by decide +kernel) (by decide +kernel)

attribute [local irreducible] cycleFile someBytes cycleBytes in
theorem cycle_index0 (m : RaMgr) (h : m.buf = cycleBytes) (ra : RandomAccess) (hr : ra = { prevLoc := 52 }) :
    m.readIndexAt cutCodec { bytes := cycleFile, pos := 188 } ra.indexLoc.toInt = (.ok false, { bytes := cycleFile, pos := 52 }, { m with buf := someBytes }) := by
  subst hr; exact cycle_index m h

theorem chainLoop_succ (codec : Codec) (fuel : Nat) (raPos : W64) (m m1 m2 : RaMgr) (s s1 s2 : IStream) (ra : RandomAccess) (h0 : raPos ≠ 0)
    (h1 : m.readAccessAt s raPos.toInt = (.ok true, s1, m1)) (h2 : m1.list.getLast? = some ra) (h3 : m1.readIndexAt codec s1 ra.indexLoc.toInt = (.ok false, s2, m2)) :
    RaMgr.chainLoop codec (fuel + 1) raPos m s = RaMgr.chainLoop codec fuel ra.prevLoc m2 s2 := by
  conv => lhs; unfold RaMgr.chainLoop
  simp only [if_neg h0, h1, h2, h3]

attribute [local irreducible] cycleFile someBytes cycleBytes in
theorem cycle_loop (fuel : Nat) (m : RaMgr) (h : m.buf = someBytes) :
    (RaMgr.chainLoop cutCodec fuel 52 m { bytes := cycleFile, pos := 52 }).1 = .error .diverge := by
  induction fuel generalizing m with
  | zero => rfl
  | succ fuel ih =>
    rw [chainLoop_succ cutCodec fuel 52 m _ _ _ _ _ { prevLoc := 52 } (by decide) (cycle_step m h) (by simp) (cycle_index0 _ rfl _ rfl)]
    exact ih _ rfl

def lastBytes : List Byte := recordBytes accessName [RandomAccess.block { nextLoc := 52 }]
theorem cycle_last (m : RaMgr) (h : m.buf = []) : m.readAccessAt { bytes := cycleFile } (-(randomAccessSize : Int)) =
    (.ok true, { bytes := cycleFile, pos := 324 }, { m with list := m.list ++ [{ nextLoc := 52 }], buf := lastBytes }) :=
  readAccessAt_of m _ { bytes := cycleFile, pos := 188 } _ _
    { fileStart := 188, fileEnd := 324, headerLength := 40, options := 0, dataLength := 96, uncompressedLength := 96, name := accessName } _ (lastBytes.drop 40) _
    (by decide +kernel) (by rw [h]; decide +kernel) rfl (by decide +kernel) (by decide +kernel)
theorem cycle_first (m : RaMgr) (h : m.buf = lastBytes) : m.readAccessAt { bytes := cycleFile, pos := 324 } (52 : W64).toInt =
    (.ok true, { bytes := cycleFile, pos := 188 }, { m with list := m.list ++ [{ prevLoc := 52 }], buf := cycleBytes }) :=
  readAccessAt_of m _ { bytes := cycleFile, pos := 52 } _ _
    { fileStart := 52, fileEnd := 188, headerLength := 40, options := 0, dataLength := 96, uncompressedLength := 96, name := accessName } _ (cycleBytes.drop 40) _
    (by decide +kernel) (by rw [h]; decide +kernel) rfl (by decide +kernel) cycle_blocks

/-- The loop over the random access records is reached when the file is opened. -/
theorem cycle_open (f ra : RandomAccess) (m m1 m2 m3 : RaMgr) (s s1 s2 s3 : IStream)
    (h1 : m.readAccessAt s (-(randomAccessSize : Int)) = (.ok true, s1, m1)) (h2 : m1.list.getLast? = some f)
    (h3 : RaMgr.readAccessAt { m1 with file := some f, list := m1.list.dropLast } s1 f.nextLoc.toInt = (.ok true, s2, m2)) (h4 : m2.list.getLast? = some ra)
    (h5 : m2.readIndexAt cutCodec s2 ra.indexLoc.toInt = (.ok false, s3, m3)) (h6 : (RaMgr.chainLoop cutCodec (recordFuel s3) ra.prevLoc m3 s3).1 = .error .diverge) :
    (m.createEventMap cutCodec s).1 = .error .diverge := by
  unfold RaMgr.createEventMap
  simp only [h1, h2, h3, h4, h5]
  split
  · rename_i e _ _ he
    rw [he] at h6
    exact congrArg Except.error (Except.error.inj h6)
  · rename_i he
    rw [he] at h6
    cases h6

theorem openFiles_direct (cfg : RConfig) (bytes : List Byte) (e : Err) (h : (RaMgr.createEventMap cfg.codec {} { bytes := bytes }).1 = .error e) :
    (Reader.openFiles cfg true [(str "f", bytes)]).1 = .error e := by
  unfold Reader.openFiles Reader.openFile
  simp only [if_true]
  split
  · rename_i e' _ _ he
    rw [he] at h
    exact congrArg Except.error (Except.error.inj h)
  · rename_i he
    rw [he] at h
    cases h

attribute [local irreducible] cycleFile someBytes cycleBytes lastBytes in
/-- **C75** fails for cycles of random access records: opening the file with direct access never ends. -/
theorem C75_fails_for_cycle : (∀ fuel m, m.buf = someBytes → (RaMgr.chainLoop cutCodec fuel 52 m { bytes := cycleFile, pos := 52 }).1 = .error .diverge) ∧
    (Reader.openFiles cutCfg true [(str "f", cycleFile)]).1 = .error .diverge := by
  refine ⟨cycle_loop, ?_⟩
  exact openFiles_direct cutCfg _ _ (cycle_open { nextLoc := 52 } { prevLoc := 52 } {} _ _ _ { bytes := cycleFile } _ _ _ (cycle_last _ rfl) (by simp) (cycle_first _ rfl)
    (by simp) (cycle_index0 _ rfl _ rfl) (cycle_loop _ _ rfl))

/-! ## A file that is damaged but safe -/

/-- `Overlong` for programs that make no objects, with the bytes of the device and its position. -/
def overlongB {α : Type} : RProg α → List Byte → Nat → Bool
  | .ret _, _, _ => false
  | .throw _, _, _ => false
  | .arr s c k, buf, cur => decide (2 ^ 32 - 3 ≤ s * c) || match apiRead buf s cur c with
    | .error _ => false
    | .ok (vs, n) => overlongB (k vs) buf (cur + n)
  | _, _, _ => true

theorem overlongB_no {α : Type} (p : RProg α) (d : RDev) (h : overlongB p d.buf d.cur = false) : ¬ Overlong p d := by
  induction p generalizing d with
  | ret _ => simp [Overlong]
  | throw _ => simp [Overlong]
  | arr s c k ih =>
    unfold Overlong RDev.data
    unfold overlongB at h
    simp only [Bool.or_eq_false_iff, decide_eq_false_iff_not] at h
    obtain ⟨h1, h2⟩ := h
    rintro (h | h)
    · exact h1 h
    · rcases he : apiRead d.buf s d.cur c with _ | ⟨vs, n⟩
      · rw [he] at h; exact h
      · rw [he] at h h2; exact ih vs _ h2 h
  | ptr _ _ => cases h
  | tag _ _ _ => cases h
  | new _ _ => cases h

/-- An event header and an event of which the second half is missing. -/
def cutHeader : List Byte := recordBytes headerRecordName [EventHeader.block [] { run := 4, cols := [(str "A", { type := str "MCParticle", flag := 0 })] }]
def cutFile : List Byte := cutHeader ++ (recordBytes eventRecordName [⟨str "A", blockVersion, (mcCol [(11, []), (12, [11])]).write ieee⟩]).take 100

/-- The two records. -/
def cutRec1 : Rec := ⟨headerRecordName, 0, 96, cutHeader.drop 40⟩
def cutRec2 : Rec := ⟨eventRecordName, 0, 220, (recordBytes eventRecordName [⟨str "A", blockVersion, (mcCol [(11, []), (12, [11])]).write ieee⟩]).drop 32⟩

theorem readRecordInfo_marker (file buf : List Byte) (p : Nat) (info : RecordInfo) (h : (readRecordInfo { bytes := file, pos := p } buf).1 = .ok info) :
    p < file.length ∧ wordAt file (p + 4) = 0xabadcafe := by
  rcases he : readRecordInfo { bytes := file, pos := p } buf with ⟨res, s, buf'⟩
  rw [he] at h
  cases h
  have k := readRecordInfo_ok _ _ he
  have := k.inside
  exact ⟨by simp only at this; omega, k.marker⟩

theorem cut_held {p : Nat} {info : RecordInfo} {data : List Byte} (h : HeldAt cutFile p info data) : info = cutRec1.info 0 ∧ data = cutRec1.data := by
  obtain ⟨⟨buf, h1⟩, h2, h3⟩ := h
  obtain ⟨k1, k2⟩ := readRecordInfo_marker _ _ _ _ h1
  have hp : p = 0 ∨ p = 136 := by
    have : ∀ p < cutFile.length, wordAt cutFile (p + 4) = 0xabadcafe → p = 0 ∨ p = 136 := by decide +kernel
    exact this p k1 k2
  rcases hp with rfl | rfl
  · have e : cutFile = [] ++ cutRec1.header ++ cutFile.drop 40 := by decide +kernel
    have hr : cutRec1.Ok := ⟨by decide +kernel, by decide +kernel, by decide +kernel, fun _ => by decide +kernel⟩
    have := readRecordInfo_eq buf [] (cutFile.drop 40) cutRec1 hr 0 rfl
    rw [← e] at this
    change readRecordInfo { bytes := cutFile, pos := 0 } buf = _ at this
    rw [this] at h1
    cases h1
    exact ⟨rfl, by rw [h2]; decide +kernel⟩
  · exfalso
    have e : cutFile = cutHeader ++ cutRec2.header ++ cutFile.drop 168 := by decide +kernel
    have hr : cutRec2.Ok := ⟨by decide +kernel, by decide +kernel, by decide +kernel, fun _ => by decide +kernel⟩
    have := readRecordInfo_eq buf cutHeader (cutFile.drop 168) cutRec2 hr 136 (by decide +kernel)
    rw [← e] at this
    change readRecordInfo { bytes := cutFile, pos := 136 } buf = _ at this
    rw [this] at h1
    cases h1
    rw [h2] at h3
    exact absurd h3 (by decide +kernel)

theorem cut_stored {name : Str} {data : List Byte} (h : Stored cutFile name data) : name = headerRecordName ∧ data = cutRec1.data := by
  obtain ⟨p, info, h, rfl⟩ := h
  obtain ⟨h1, h2⟩ := cut_held h
  exact ⟨by rw [h1]; rfl, h2⟩
theorem cut_recorded {name : Str} {data : List Byte} (h : Recorded cutCodec cutFile name data) : name = headerRecordName ∧ data = cutRec1.data := by
  obtain ⟨p, info, stored, h, rfl, hp⟩ := h
  obtain ⟨h1, h2⟩ := cut_held h
  rw [h1] at hp
  have : plainData cutCodec (cutRec1.info 0) stored = .ok stored := rfl
  rw [this, h2] at hp
  exact ⟨by rw [h1]; rfl, (Except.ok.inj hp).symm⟩

theorem cut_blocks (only : List Str) (ho : only = [] ∨ only = [str "__dummy__"]) : ¬ OverlongBlock cutRec1.data [headerDecoder only] := by
  rintro (⟨p, h⟩ | ⟨p, info, span, h1, b, hb, hn, dev, hd1, hd2, h⟩)
  · by_cases hp : p < cutRec1.data.length
    · have : ∀ p < cutRec1.data.length, overlongB blockHeader (cutRec1.data.drop p) 0 = false := by decide +kernel
      exact overlongB_no _ { buf := cutRec1.data.drop p } (this p hp) h
    · rw [List.drop_of_length_le (by omega)] at h
      exact overlongB_no _ _ (by decide) h
  · have k := extractBlock_end _ _ _ _ (by decide +kernel) h1
    have : ∀ p < cutRec1.data.length, wordAt cutRec1.data (p + 4) = 0xdeadbeef → p = 0 := by decide +kernel
    obtain rfl := this p k.2.2.1 k.2.2.2
    have e : extractBlock cutRec1.data 0 = .ok ({ recordStart := 0, recordEnd := 96, headerLength := 28, version := blockVersion, dataLength := 68, name := headerBlockName },
        cutRec1.data) := by decide +kernel
    rw [e] at h1
    cases h1
    simp only [List.mem_singleton] at hb
    subst hb
    refine overlongB_no _ dev ?_ h
    rw [hd1, hd2]
    rcases ho with rfl | rfl <;> decide +kernel

/-- The hypotheses of C74 and C75 are met by a file that is cut in the middle of an event: nothing is wrong with it that could lead to undefined behaviour ... -/
theorem cut_safe : ¬ Danger cutCfg cutFile := by
  intro h
  cases h with
  | recordHeader h => 
    obtain ⟨p, h1, h2⟩ := h
    have : ∀ p < cutFile.length, ¬ (p + 116 < cutFile.length ∧ wordAt cutFile (p + 4) = 0xabadcafe ∧ (wordAt cutFile p < 8 ∨ 116 < wordAt cutFile p)) := by decide +kernel
    exact this p (by omega) ⟨h1, h2⟩
  | run data h o => rcases h with h | h
                    · exact absurd (cut_recorded h).1 (by decide)
                    · exact absurd (cut_stored h).1 (by decide)
  | header data only ho h o =>
    rw [(cut_recorded h).2] at o
    exact cut_blocks only ho o
  | access data h o => exact absurd (cut_stored h).1 (by decide)
  | index data h o => exact absurd (cut_recorded h).1 (by decide)
  | collections _ _ _ _ _ h3 => exact absurd (cut_recorded h3).1 (by decide)
  | unknownType _ _ _ _ _ h3 => exact absurd (cut_recorded h3).1 (by decide)
  | oldParticles _ _ _ _ _ h3 => exact absurd (cut_recorded h3).1 (by decide)
  | parent _ _ _ _ _ _ h3 => exact absurd (cut_recorded h3).1 (by decide)
  | lost h =>
    obtain ⟨info, data, f, h1, h2, -⟩ := h
    exact absurd (cut_stored ⟨_, _, h1, h2⟩).1 (by decide)

/-- ... and nothing on which a reader could loop. -/
theorem cut_ends : ¬ Stuck cutCfg cutFile := by
  intro h
  cases h with
  | record h =>
    obtain ⟨p, h1, h2⟩ := h
    have : ∀ p < cutFile.length, ¬ (wordAt cutFile (p + 4) = 0xabadcafe ∧
      (wordAt cutFile p < 16 ∨ (wordAt cutFile p + wordAt cutFile (p + 12)) % 2 ^ 32 = 0 ∨
       (wordAt cutFile p + wordAt cutFile (p + 12) + (4 - wordAt cutFile (p + 12) % 4) % 4) % 2 ^ 32 = 0)) := by decide +kernel
    exact this p h1 h2
  | block name data h hz =>
    have e : data = cutRec1.data := by
      rcases h with h | h
      · exact (cut_recorded h).2
      · exact (cut_stored h).2
    rw [e] at hz
    obtain ⟨p, h1, h2⟩ := hz
    have : ∀ p < cutRec1.data.length, ¬ (wordAt cutRec1.data p = 0 ∧ wordAt cutRec1.data (p + 4) = 0xdeadbeef) := by decide +kernel
    exact this p h1 h2
  | cycle h =>
    obtain ⟨ps, h1, -, h3⟩ := h
    obtain ⟨info, data, ra, h4, h5, -⟩ := h3 0 _ _ (List.getElem?_eq_getElem (by omega)) (List.getElem?_eq_getElem (by omega))
    exact absurd (cut_stored ⟨_, _, h4, h5⟩).1 (by decide)

/-- Reading this file, event by event or with direct access, throws exceptions; and so on for every sequence of calls. -/
example : (Reader.openFiles cutCfg false [(str "f", cutFile)]).1 = .ok () ∧
    (match firstEvent cutFile with
      | .error e => decide (e = .ioFailure)
      | .ok _ => false) = true := by decide +kernel
example (r : Reader) (h : Reached cutCfg [(str "f", cutFile)] r) (run evt : W32) :
    (r.readEvent cutCfg run evt).1 ≠ .error .ub ∧ (r.readEvent cutCfg run evt).1 ≠ .error .diverge :=
  ⟨((C74_reading_partial cutCfg cutCodec_careful _ (by simp) (by simp only [List.mem_singleton, forall_eq]; exact cut_safe)).2 r h).2.2.2.2.2.1 run evt,
   ((C75_reading_partial cutCfg cutCodec_careful _ (by simp) (by simp only [List.mem_singleton, forall_eq]; exact cut_ends)).2 r h).2.2.2.2.2.1 run evt⟩

end Props
