import Verif.Lcio.FormatEvents
import Verif.Lcio.FormatHeaders
import Verif.Sio.SameBytes
import Verif.Props.EventCases
/-
C76: what is written is what the description of the format (cmake/lcio.xml.in) says. C77: what the description says for any version can be read.
C78: the bytes of a record depend only on what is stored.
-/
namespace Props
open Sio Spec Lcio

instance (std : Std Pid) (k : Kind) (c : Collection) : Decidable (Described std k c) :=
  decidable_of_iff ((k = .calHit → c.flag.getLsbD 18 = false → c.flag.getLsbD 28 = false) ∧
      (k = .generic → c.flag.getLsbD 18 = true → (c.written std).flag.getLsbD 31 = false))
    ⟨fun ⟨a, b⟩ => ⟨a, b⟩, fun ⟨a, b⟩ => ⟨a, b⟩⟩
instance (v : Nat) (flag : W32) (k : Kind) : Decidable (docAgrees v flag k) := by unfold docAgrees; split <;> infer_instance
instance (v : Nat) (flag : W32) (algs : List Str) (size : Nat × Nat × Nat) (o : Obj) : Decidable (docFits v flag algs size o) := by
  unfold docFits; split <;> infer_instance
instance (v : Nat) (k : Kind) (c : Collection) : Decidable (DocColOk v k c) :=
  decidable_of_iff (kindOf c.type = some k ∧ small c.elems.length ∧ c.params.readOnly = false ∧ ParamsOk c.params ∧
      (c.flag.getLsbD 18 = false → docAgrees v c.flag k) ∧
      (c.flag.getLsbD 18 = false → ∀ e ∈ c.elems, ∃ o, e.obj = some o ∧ ObjOk k o ∧ docFits v c.flag (docAlgs k c.params) (docSize c.elems) o) ∧
      (k = .generic → c.flag.getLsbD 18 = true → c.flag.getLsbD 31 = false))
    ⟨fun ⟨a, b, c, d, e, f, g⟩ => ⟨a, b, c, d, e, f, g⟩, fun ⟨a, b, c, d, e, f, g⟩ => ⟨a, b, c, d, e, f, g⟩⟩

/-! ## C76 -/

theorem SameBlocks.map {α : Type} (f g : α → WBlock) : ∀ (l : List α), (∀ a ∈ l, SameBlock (f a) (g a)) → SameBlocks (l.map f) (l.map g)
  | [], _ => .nil
  | a :: l, h => .cons (h a (by simp)) (SameBlocks.map f g l fun b hb => h b (by simp [hb]))

theorem docWritten_type (std : Std Pid) (k : Kind) (c : Collection) (h : CollectionOk std k c) : kindD (docWritten std c) = kindD c := by
  have : (c.written std).type = c.type := by
    obtain ⟨ctx, c', hp⟩ := prepare_ok std k c h.access h.vertices h.generic
    rw [written_eq std k c ctx c' h.kind hp, hp.type]
  unfold kindD docWritten
  rw [this]

/-- **C76** for event records. In each of the collections that are written, document and code agree (`Described`). Then the bytes of the event record are
those of a record that has one block for each of these collections, with the contents that the document describes for files of version 2.15. What is missing:
the collections excluded by `Described` (`C76_fails_for_plain_hits`, `C76_fails_for_fixed_subset`); and that vertices are stored differently
is a part of `docWritten` (`C76_fails_for_primary`). -/
theorem C76_event_partial (std : Std Pid) (only : List Str) (cols : List (Str × Collection)) (hok : EventOk std only cols)
    (hd : ∀ c ∈ storedCols only cols, Described std (kindD c.2) c.2) (buf : Str) (opts : W32) :
    writeRecord (str "LCEvent") buf (eventBlocks std only cols) opts =
      writeRecord (str "LCEvent") buf
        (docBlocks std (encodeVersion 2 15) 2015 ((storedCols only cols).map fun c => (c.1, docWritten std c.2))) opts := by
  symm
  refine writeRecord_same _ buf _ _ opts hok.size ?_
  rw [eventBlocks_eq]
  unfold docBlocks
  rw [List.map_map]
  refine SameBlocks.map _ _ _ fun c hc => ⟨rfl, rfl, ?_⟩
  have h := collectionWrites std _ c.2 (hok.stored c hc) (hd c hc)
  show flat (docCollection std 2015 (kindD (docWritten std c.2)) _) = flat (c.2.write std)
  rw [docWritten_type std _ _ (hok.stored c hc), h]

/-- The sample event has ten collections of nine kinds, among them a subset. -/
example : EventOk ieee [] sampleCols ∧ (∀ c ∈ storedCols [] sampleCols, Described ieee (kindD c.2) c.2) ∧ (storedCols [] sampleCols).length = 10 := by decide +kernel

/-- **C76** for event header records: the names and types of the collections that are stored, the type of a subset with the postfix "_References". -/
theorem C76_event_header (only : List Str) (e : EventHeader) (hok : EventHeaderOk e) (buf : Str) (opts : W32) :
    writeRecord (str "LCEventHeader") buf [e.block only] opts = writeRecord (str "LCEventHeader") buf
      [⟨str "EventHeader", encodeVersion 2 15, encode 2015 Doc.EventHeader [docEventHeader e (docTypes (stored only e))]⟩] opts := by
  rw [eventHeader_doc only e hok.params]; rfl

/-- **C76** for run header records. -/
theorem C76_run_header (h : RunHeader) (hok : RunHeaderOk h) (buf : Str) (opts : W32) :
    writeRecord (str "LCRunHeader") buf [h.block] opts = writeRecord (str "LCRunHeader") buf
      [⟨str "RunHeader", encodeVersion 2 15, encode 2015 Doc.RunHeader [docRunHeader h]⟩] opts := by
  rw [runHeader_doc h hok.params]; rfl

/-- **C76** for random access records. All have the same number for the size of the record. -/
theorem C76_random_access (a : RandomAccess) (buf : Str) (opts : W32) :
    writeRecord (str "LCIORandomAccess") buf [a.block] opts = writeRecord (str "LCIORandomAccess") buf
      [⟨str "LCIORandomAccess", encodeVersion 2 15, encode 2015 Doc.LCIORandomAccess [docRandomAccess a 0xabcd0088]⟩] opts := by
  rw [access_doc a]; rfl

/-- **C76** for index records, if the last entry is less than 2 GiB behind the first. What is missing: other maps (`C76_fails_for_far_index`). -/
theorem C76_index_partial (ops : List MapOp) (hruns : ∀ e ∈ (build ops).map, 0 ≤ e.1.run.toInt)
    (hnear : ((build ops).getPosition (build ops).maxRunEvent - (build ops).getPosition (build ops).minRunEvent).toInt < 2 ^ 31) (buf : Str) (opts : W32) :
    writeRecord (str "LCIOIndex") buf [(build ops).block] opts = writeRecord (str "LCIOIndex") buf
      [⟨str "LCIOIndex", encodeVersion 2 15, encode 2015 Doc.LCIOIndex
        [docIndex (if (build ops).minRunEvent.run = (build ops).maxRunEvent.run then 1 else 0) (build ops).minRunEvent.run
          ((build ops).getPosition (build ops).minRunEvent) (build ops).map]⟩] opts := by
  generalize hm : build ops = m at *
  have e1 : (if m.minRunEvent.run = m.maxRunEvent.run then (1 : W32) else 0) = if m.oneRun then 1 else 0 := by
    unfold RunEventMap.oneRun; simp only [beq_iff_eq]
  rw [e1, index_doc m]
  · rfl
  · unfold RunEventMap.longOffset
    rw [decide_eq_false_iff_not]; omega
  · intro _ e he
    have hfirst : 0 ≤ m.minRunEvent.run.toInt := by
      unfold RunEventMap.minRunEvent
      cases hmm : m.map with
      | nil => rw [hmm] at he; cases he
      | cons x xs => exact hruns x (by rw [hmm]; simp)
    have h2 := hruns e he
    have h3 := toInt_range e.1.run
    have h4 := toInt_range m.minRunEvent.run
    unfold BitVec.ssubOverflow
    simp
    omega

example : (∀ e ∈ (build sampleOps).map, 0 ≤ e.1.run.toInt) ∧
    ((build sampleOps).getPosition (build sampleOps).maxRunEvent - (build sampleOps).getPosition (build sampleOps).minRunEvent).toInt < 2 ^ 31 := by decide +kernel

/-- **C76** fails for calorimeter hits that cannot be pointed at (bit 28): by the document there is a `ptag` for each hit. -/
theorem C76_fails_for_plain_hits : ∃ c : Collection, CollectionOk ieee .calHit c ∧ c.type = str "CalorimeterHit" ∧ c.flag = 1#32 <<< 28 ∧
    (bytesOf (c.write ieee)).length + 4 = (bytesOf (docCollection ieee 2015 .calHit (c.written ieee))).length :=
  ⟨{ type := str "CalorimeterHit", flag := 1#32 <<< 28, elems := [⟨10, some (.calHit {})⟩] }, by decide +kernel⟩

/-- **C76** fails for subsets of generic objects of fixed size: what follows the flag word and the parameters is not described. -/
theorem C76_fails_for_fixed_subset : ∃ c : Collection, CollectionOk ieee .generic c ∧ c.type = str "LCGenericObject" ∧ c.flag = 1#32 <<< 18 ∧
    (bytesOf (c.write ieee)).length = (bytesOf (docCollection ieee 2015 .generic (c.written ieee))).length + 12 :=
  ⟨{ type := str "LCGenericObject", flag := 1#32 <<< 18, elems := [⟨10, some (.generic { fixed := true })⟩] }, by decide +kernel⟩

/-- **C76** fails for vertices: whether it is the primary one is written as one byte and three zeros, but described as a number with four bytes. -/
theorem C76_fails_for_primary : ∃ c : Collection, CollectionOk ieee .vertex c ∧ (c.elems = [⟨10, some (.vertex { primary := 1 })⟩]) ∧
    bytesOf (c.write ieee) ≠ bytesOf (docCollection ieee 2015 .vertex (c.written ieee)) :=
  ⟨{ type := str "Vertex", elems := [⟨10, some (.vertex { primary := 1 })⟩] }, by decide +kernel⟩

theorem flatMap_len {α β : Type} (f : α → List β) (n : Nat) : ∀ (l : List α), (∀ a ∈ l, (f a).length = n) → (l.flatMap f).length = l.length * n
  | [], _ => by simp
  | a :: l, h => by
    rw [List.flatMap_cons, List.length_append, h a (by simp), flatMap_len f n l fun b hb => h b (by simp [hb]), List.length_cons, Nat.succ_mul, Nat.add_comm]

theorem bytesOf_w32 (w : W32) : bytesOf (w32 w) = bigEndian 4 w.toNat := by
  simp [bytesOf, w32, itemBytes, wireArray, padding]
theorem bytesOf_w64 (w : W64) : bytesOf (w64 w) = bigEndian 8 w.toNat := by
  simp [bytesOf, w64, itemBytes, wireArray, padding]

/-- **C76** fails for an index of a file of more than 2 GiB: by the document all offsets have 32 bits, as the condition for 64 bits is never true. -/
theorem C76_fails_for_far_index : ∃ ops, build ops = { map := [(⟨0, 1⟩, 100), (⟨1, 2⟩, 5000000000)], nRun := 0, nEvt := 2 } ∧
    ∀ v control runMin base es, bytesOf (build ops).write ≠ bytesOf (encode v Doc.LCIOIndex [docIndex control runMin base es]) := by
  refine ⟨[.add ⟨0, 1⟩ 100, .add ⟨1, 2⟩ 5000000000], by decide +kernel, ?_⟩
  intro v control runMin base es h
  rw [encode_index] at h
  have hl : (bytesOf (build [.add ⟨0, 1⟩ 100, .add ⟨1, 2⟩ 5000000000]).write).length = 52 := by decide +kernel
  have hc : ((bytesOf (build [.add ⟨0, 1⟩ 100, .add ⟨1, 2⟩ 5000000000]).write).drop 16).take 4 = [0, 0, 0, 2] := by decide +kernel
  rw [h] at hl hc
  simp only [bytesOf_append, bytesOf_w32, bytesOf_w64] at hl hc
  have hrows : (bytesOf (es.flatMap fun e => wIf (control.toNat &&& 1 == 0) (w32 (e.1.run - runMin)) ++ (w32 e.1.evt ++ w32 ((e.2 - base).setWidth 32)))).length =
      es.length * (if control.toNat &&& 1 == 0 then 12 else 8) := by
    unfold bytesOf
    rw [List.flatMap_assoc]
    refine flatMap_len _ _ _ fun e _ => ?_
    rw [← bytesOf, bytesOf_append, bytesOf_append, List.length_append, List.length_append, bytesOf_w32, bytesOf_w32]
    cases control.toNat &&& 1 == 0
    · simp [wIf, bytesOf, bigEndian_length]
    · simp [wIf, bytesOf_w32, bigEndian_length]
  rw [List.length_append, List.length_append, List.length_append, List.length_append, hrows] at hl
  simp only [bigEndian_length] at hl
  have hn : es.length = 4 := by
    split at hl <;> omega
  rw [hn, ← List.append_assoc, ← List.append_assoc, List.drop_append_of_le_length (by simp [bigEndian_length]),
    List.drop_of_length_le (by simp [bigEndian_length])] at hc
  revert hc
  rw [List.nil_append, List.take_append_of_le_length (by simp [bigEndian_length])]
  decide

/-! ## C77 -/

/-- **C77** for event records, of version 0.8 and later. A record has one block for each collection, with the contents that the document describes for the version of
the block. Reading those that the reader wants gives these collections, with the objects (`SeenCol`): every field that files of this version have is
there, the others have the defaults, and pointers are to the objects that were loaded. What is missing: collections for which document and code disagree (`docAgrees`, `DocColOk.subset`),
see the examples below. -/
theorem C77_event_partial (std : Std Pid) (vers : W32) (hminor : (minorVersion vers).toNat < 1000) (h8 : 8 ≤ docVersion vers) (want : Str → Bool) (cs : List (Str × Collection))
    (hok : ∀ c ∈ cs, DocColOk (docVersion vers) (kindD c.2) c.2) (hnames : (cs.map (·.1)).Nodup)
    (haddr : (docAddresses std (docVersion vers) cs).Nodup) (hnull : 0 ∉ docAddresses std (docVersion vers) cs)
    (hsize : Writable (str "LCEvent") (docBlocks std vers (docVersion vers) cs))
    (buf : Str) (opts : W32) (next : Nat) (hnext : 0 < next) (heads : List (Str × ColHead))
    (hheads : heads.map (fun c => (c.1, c.2.type)) = (cs.filter fun c => want c.1).map (fun c => (c.1, c.2.type))) :
    ∃ info bytes results ρ dev T, writeRecord (str "LCEvent") buf (docBlocks std vers (docVersion vers) cs) opts = .ok (info, bytes) ∧
      readBlocks (bytes.drop info.headerLength) (eventDecoders std heads) next = .ok (results, ρ, dev) ∧
      All2 (fun c c' => c'.1 = c.1 ∧ SeenCol std (docVersion vers) (kindD c.2) T c.2 c'.2) (cs.filter fun c => want c.1)
        (results.map fun c => (c.1, c.2.mapPtr ρ)) ∧
      DocPointers std (docVersion vers) (cs.filter fun c => want c.1) T :=
  eventReads std vers _ (Vers.of vers hminor) h8 want cs hok hnames haddr hnull hsize buf opts next hnext heads hheads

/-- **C77** for run header records. -/
theorem C77_run_header (vers : W32) (hminor : (minorVersion vers).toNat < 1000) (h8 : 8 ≤ docVersion vers) (h : RunHeader) (hok : RunHeaderOk h)
    (hw : Writable (str "LCRunHeader") [⟨str "RunHeader", vers, encode (docVersion vers) Doc.RunHeader [docRunHeader h]⟩]) (buf : Str) (opts : W32) (next : Nat) :
    ∃ h', storeLoad (str "LCRunHeader") buf opts [⟨str "RunHeader", vers, encode (docVersion vers) Doc.RunHeader [docRunHeader h]⟩] [runDecoder] next =
        .ok [(str "RunHeader", h')] ∧
      h'.run = h.run ∧ h'.det = h.det ∧ h'.descr = h.descr ∧ h'.subdets = h.subdets ∧
      (1001 < docVersion vers → h'.params.ints = h.params.ints ∧ h'.params.floats = h.params.floats ∧ h'.params.strs = h.params.strs) ∧
      (docVersion vers ≤ 1001 → h'.params.ints = [] ∧ h'.params.floats = [] ∧ h'.params.strs = []) := by
  refine ⟨{ h with params := { (if 1001 < docVersion vers then h.params else {}) with readOnly := false } }, storeLoad_plain (str "LCRunHeader") buf opts _ runDecoder next _ rfl hw fun φ n => ?_, ?_⟩
  · have := runHeader_reads φ vers hminor h8 h hok [] n []
    rw [List.append_nil] at this
    exact this
  · refine ⟨rfl, rfl, rfl, rfl, fun hv => ?_, fun hv => ?_⟩
    · simp only [if_pos hv, and_self]
    · simp only [if_neg (Nat.not_lt.2 hv), and_self]

/-- **C77** for event header records. The reader knows names and types of the collections it wants. -/
theorem C77_event_header (vers : W32) (hminor : (minorVersion vers).toNat < 1000) (h8 : 8 ≤ docVersion vers) (wanted : List Str) (e : EventHeader) (hok : EventHeaderOk e)
    (hr : ∀ c ∈ e.cols, c.2.flag.getLsbD 18 = false → ¬ occursIn (str "_References") c.2.type)
    (hw : Writable (str "LCEventHeader") [⟨str "EventHeader", vers, encode (docVersion vers) Doc.EventHeader [docEventHeader e (docTypes e.cols)]⟩])
    (buf : Str) (opts : W32) (next : Nat) :
    ∃ e', storeLoad (str "LCEventHeader") buf opts [⟨str "EventHeader", vers, encode (docVersion vers) Doc.EventHeader [docEventHeader e (docTypes e.cols)]⟩]
        [headerDecoder wanted] next = .ok [(str "EventHeader", e')] ∧
      e'.run = e.run ∧ e'.evt = e.evt ∧ e'.time = e.time ∧ e'.det = e.det ∧
      (1001 < docVersion vers → e'.params.ints = e.params.ints ∧ e'.params.floats = e.params.floats ∧ e'.params.strs = e.params.strs) ∧
      (docVersion vers ≤ 1001 → e'.params.ints = [] ∧ e'.params.floats = [] ∧ e'.params.strs = []) ∧
      e'.cols.map (fun c => (c.1, c.2.type)) = (e.cols.filter fun c => wanted.isEmpty || wanted.contains c.1).map (fun c => (c.1, c.2.type)) := by
  refine ⟨{ e with params := { (if 1001 < docVersion vers then e.params else {}) with readOnly := false },
                   cols := (e.cols.filter fun c => wanted.isEmpty || wanted.contains c.1).map fun c => (c.1, ⟨c.2.type, 0⟩) }, storeLoad_plain (str "LCEventHeader") buf opts _ (headerDecoder wanted) next _ rfl hw fun φ n => ?_, ?_⟩
  · have := eventHeader_reads φ vers hminor h8 wanted e hok hr [] n []
    rw [List.append_nil] at this
    exact this
  · refine ⟨rfl, rfl, rfl, rfl, fun hv => ?_, fun hv => ?_, ?_⟩
    · simp only [if_pos hv, and_self]
    · simp only [if_neg (Nat.not_lt.2 hv), and_self]
    · simp [Function.comp_def]

/-- The sample event as it is stored in a file of version 1.60. -/
def oldCols : List (Str × Collection) := sampleCols.map fun c => (c.1, docWritten ieee c.2)

/-- The sample event meets the hypotheses of **C77** in version 1.60. -/
example : (minorVersion 0x0001003c).toNat < 1000 ∧ docVersion 0x0001003c = 1060 ∧ (∀ c ∈ oldCols, DocColOk 1060 (kindD c.2) c.2) ∧ (oldCols.map (·.1)).Nodup ∧
    (docAddresses ieee 1060 oldCols).Nodup ∧ 0 ∉ docAddresses ieee 1060 oldCols ∧ Writable (str "LCEvent") (docBlocks ieee 0x0001003c 1060 oldCols) := by
  decide +kernel

/-- And in version 1.3. -/
example : (minorVersion 0x00010003).toNat < 1000 ∧ docVersion 0x00010003 = 1003 ∧ (∀ c ∈ oldCols, DocColOk 1003 (kindD c.2) c.2) ∧ (oldCols.map (·.1)).Nodup ∧
    (docAddresses ieee 1003 oldCols).Nodup ∧ 0 ∉ docAddresses ieee 1003 oldCols ∧ Writable (str "LCEvent") (docBlocks ieee 0x00010003 1003 oldCols) := by
  decide +kernel

/-- The only state of the track in files of version 1.60 is the first one, and the momentum at the endpoint is not there. -/
example : ∀ c ∈ oldCols, ∀ e ∈ c.2.elems, ((docVersion 0x0001003c) = 1060) ∧
    (kindD c.2 = .track → present ieee 1060 .track c.2 e "nTrackStates" = false ∧ present ieee 1060 .track c.2 e "n" = true) ∧
    (kindD c.2 = .mcParticle → present ieee 1060 .mcParticle c.2 e "momentum2" = false ∧ present ieee 1060 .mcParticle c.2 e "this" = true) := by decide +kernel

example : RunHeaderOk sampleRun ∧ Writable (str "LCRunHeader") [⟨str "RunHeader", 0x00010001, encode 1001 Doc.RunHeader [docRunHeader sampleRun]⟩] ∧
    docVersion 0x00010001 = 1001 :=
  ⟨⟨by decide, by decide, by decide, by decide, sampleParams_ok⟩, by decide +kernel⟩

/-- The elements of the collection that is loaded from a block that follows the document, in a file of this version. The fields other than flag word and
parameters are `outer`. -/
def loadDoc (vers : W32) (type : Str) (k : Kind) (flag : W32) (outer : FRec) : Except Err (List (List Elem)) :=
  (storeLoad (str "LCEvent") [] 0 [⟨str "A", vers, encode (docVersion vers) (docBlock k) [docHead k flag {} (0, 0, 0) ++ outer]⟩]
    (eventDecoders ieee [(str "A", ⟨type, 0⟩)]) 1).map fun l => l.map fun c => c.2.elems

/-- An electron with mass 5 in the format of version 0.8. -/
def oldMCParticle : FRec :=
  [("this", .ref 10), ("parent", .ref 0), ("secondParent", .ref 0), ("nDaughter", .rows []), ("PDG", .word 11), ("generatorStatus", .word 1),
   ("vertex", .dwords [0, 0, 0]), ("momentum", .words [0, 0, 0]), ("mass", .word 0x40a00000), ("charge", .word 0), ("endpoint", .dwords [0, 0, 0])]

/-- **C77** fails for particles in files of version 0.8, which are accepted: the code has only the format of the later versions. Another particle is read. -/
theorem C77_fails_for_first_version : ∃ l, loadDoc 0x00000008 (str "MCParticle") .mcParticle 0 [("nMC", .rows [oldMCParticle])] =
    .ok [[⟨1, some (.mcParticle l)⟩]] ∧ l.pdg = 0 ∧ l.mass = 0 ∧ l.charge = 0x40a00000 :=
  ⟨{ pdg := 0, simStatus := 11, vertex := [0x0000000100000000, 0, 0], p := [0, 0, 0], mass := 0, charge := 0x40a00000 }, by decide +kernel⟩

/-- **C77** fails for contributions to simulated calorimeter hits with bit 28, up to version 2.10: by the document there is a length before the PDG code. -/
theorem C77_fails_for_length : loadDoc 0x0002000a (str "SimCalorimeterHit") .simCalHit (1#32 <<< 28)
      [("nHits", .rows [docSimCalHit 10 { conts := [{ particle := 0, energy := 1, time := 2, length := 7, pdg := 11 }] }])] =
    .ok [[⟨1, some (.simCalHit { conts := [{ particle := 0, energy := 1, time := 2, pdg := 7, stepPosition := [11, 0, 0] }] })⟩]] := by decide +kernel

/-- **C77** fails for calorimeter hits with bit 28: by the document there is a `ptag` after each hit. -/
theorem C77_fails_for_plain_hits : loadDoc 0x0002000f (str "CalorimeterHit") .calHit (1#32 <<< 28)
      [("nHits", .rows [docCalHit 10 { cellID0 := 5, energy := 6 }, docCalHit 11 { cellID0 := 7, energy := 8 }])] =
    .ok [[⟨1, some (.calHit { cellID0 := 5, energy := 6 })⟩, ⟨2, some (.calHit { cellID0 := 0xffffffff, energy := 7, type := 8 })⟩]] := by decide +kernel

/-- **C77** fails for planar hits in files up to version 1.11: reading ends with an error. -/
theorem C77_fails_for_planes : loadDoc 0x0001000b (str "TrackerHitPlane") .trackerHitPlane 0 [("n", .rows [docTrackerHitPlane 10 {}])] = .error .ioFailure ∧
    loadDoc 0x0001000b (str "TrackerHitZCylinder") .trackerHitZCylinder 0 [("n", .rows [docTrackerHitZCylinder 10 {}])] = .error .ioFailure := by decide +kernel

/-- A particle in the format of version 1.2. -/
def oldRecoParticle : FRec :=
  [("typeFlag", .word 3), ("momentum", .words [0, 0, 0]), ("energy", .word 0x3f800000), ("covariance", .words [0, 0, 0, 0, 0, 0, 0, 0, 0, 0]),
   ("mass", .word 0), ("charge", .word 0x3f800000), ("reference", .words [0, 0, 0]), ("npid", .rows []), ("nrecopart", .rows []), ("ntrk", .rows []),
   ("ncal", .rows []), ("nmc", .rows []), ("this", .ref 10)]

/-- **C77** fails for reconstructed particles in files up to version 1.2: reading ends with an error, as momentum, energy and mass are read with eight bytes. -/
theorem C77_fails_for_old_particles : loadDoc 0x00010002 (str "ReconstructedParticle") .recoParticle 0 [("nObject", .rows [oldRecoParticle])] = .error .ioFailure := by
  decide +kernel

/-- **C77** fails for tracks in files of versions between 1.99 and 2.0 (which are not used): by the document there are several track states. -/
theorem C77_fails_for_versions_between :
    loadDoc 0x00010064 (str "Track") .track 0 [("nTrack", .rows [docTrack 10 { states := [{ d0 := 5 }] }])] =
      .ok [[⟨1, some (.track { states := [{ d0 := 1, omega := 5 }] })⟩]] ∧
    loadDoc 0x00020000 (str "Track") .track 0 [("nTrack", .rows [docTrack 10 { states := [{ d0 := 5 }] }])] =
      .ok [[⟨1, some (.track { states := [{ d0 := 5 }] })⟩]] := by
  decide +kernel

/-! ## C78 -/

/-- **C78** The bytes of a record do not depend on what was in the buffer before, only on what is stored. -/
theorem C78_buffer (name buf buf' : Str) (bs : List WBlock) (opts : W32) (hw : Writable name bs) :
    writeRecord name buf' bs opts = writeRecord name buf bs opts := writeRecord_buffer name buf buf' bs opts hw

end Props
