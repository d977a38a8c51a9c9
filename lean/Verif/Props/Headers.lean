import Verif.Lcio.PlainLemmas
/-
C25, C26, C36, C37, C38: index, random access record, parameters, run header, event header.
-/
namespace Props
open Sio Spec Lcio

/-! ## C25 -/

/-- **C25**, what comes back exactly. For every map that operations can build, the index record is written, and each entry comes back
as `indexEntry` says: with its run number unless the first and the last entry have the same run number, and with its position
unless the distance from the position of the first to that of the last entry is at most 2^31 - 1; then the offset from the position of
the first entry is cut to 32 bits. -/
theorem C25_index_exact (ops : List MapOp) (buf : Str) (opts : W32) (next : Nat)
    (hlen : (build ops).map.length < 2 ^ 31)
    (hw : Writable indexName [(build ops).block])
    (hruns : ∀ e ∈ (build ops).map, 0 ≤ e.1.run.toInt) :
    storeLoad indexName buf opts [(build ops).block] [indexDecoder] next =
      .ok [(indexName, (build ops).map.map (indexEntry (decide ((build ops).minRunEvent.run = (build ops).maxRunEvent.run))
        (decide (2 ^ 31 ≤ ((build ops).getPosition (build ops).maxRunEvent - (build ops).getPosition (build ops).minRunEvent).toInt))
        (build ops).minRunEvent.run ((build ops).getPosition (build ops).minRunEvent)))] := by
  generalize hm : build ops = m at *
  apply storeLoad_plain indexName buf opts m.block indexDecoder next _ rfl hw
  intro φ n
  have h := runI_index φ m hlen (by
    intro h1 e he
    have hfirst : 0 ≤ m.minRunEvent.run.toInt := by
      unfold RunEventMap.minRunEvent
      cases hmm : m.map with
      | nil => rw [hmm] at he; cases he
      | cons x xs => exact hruns x (by rw [hmm]; simp)
    have h2 := hruns e he
    have h3 := toInt_range e.1.run
    have h4 := toInt_range m.minRunEvent.run
    unfold BitVec.ssubOverflow
    simp
    omega) [] n []
  rw [List.append_nil] at h
  have e1 : m.oneRun = decide (m.minRunEvent.run = m.maxRunEvent.run) := by
    unfold RunEventMap.oneRun; rw [Bool.eq_iff_iff]; simp
  have e2 : m.longOffset = decide (2 ^ 31 ≤ (m.getPosition m.maxRunEvent - m.getPosition m.minRunEvent).toInt) := by
    unfold RunEventMap.longOffset
    rw [Bool.eq_iff_iff]; simp; omega
  rw [e1, e2] at h
  exact h

/-- **C25** where the index is lossless. Let a map have either entries of one run only, or a first and a last entry of different
runs; and let all positions be below 2 GiB, or the last entry be 2 GiB or more behind the first one. Then the index reads back as
exactly the entries of the map, and reading it into an empty map gives the same map. What is missing: maps whose first and last entry
have the same run number although there are other runs (`C25_fails_for_enclosed_run`), and maps of big files where the first and the
last entry happen to be less than 2 GiB apart (`C25_fails_for_far_entry`). -/
theorem C25_index_round_trip_partial (ops : List MapOp) (buf : Str) (opts : W32) (next : Nat)
    (hlen : (build ops).map.length < 2 ^ 31)
    (hw : Writable indexName [(build ops).block])
    (hruns : ∀ e ∈ (build ops).map, 0 ≤ e.1.run.toInt)
    (hone : (∀ e ∈ (build ops).map, e.1.run = (build ops).minRunEvent.run) ∨ (build ops).minRunEvent.run ≠ (build ops).maxRunEvent.run)
    (hpos : (∀ e ∈ (build ops).map, 0 ≤ e.2.toInt ∧ e.2.toInt < 2 ^ 31) ∨
      2 ^ 31 ≤ ((build ops).getPosition (build ops).maxRunEvent - (build ops).getPosition (build ops).minRunEvent).toInt) :
    storeLoad indexName buf opts [(build ops).block] [indexDecoder] next = .ok [(indexName, (build ops).map)] ∧
    ({} : RunEventMap).addAll (build ops).map = build ops := by
  refine ⟨?_, addAll_self _ _ (build_inv ops)⟩
  rw [C25_index_exact ops buf opts next hlen hw hruns]
  have hinv := build_inv ops
  generalize hm : build ops = m at *
  congr 2
  rw [Prod.mk.injEq]
  refine ⟨rfl, ?_⟩
  refine (List.map_congr_left ?_).trans (List.map_id _)
  intro e he
  unfold indexEntry
  have h1 : (if decide (m.minRunEvent.run = m.maxRunEvent.run) = true then m.minRunEvent.run else e.1.run) = e.1.run := by
    split
    · rename_i h
      rcases hone with h' | h'
      · rw [h' e he]
      · exact absurd (of_decide_eq_true h) h'
    · rfl
  have h2 : (if decide (2 ^ 31 ≤ (m.getPosition m.maxRunEvent - m.getPosition m.minRunEvent).toInt) = true then e.2 else
      m.getPosition m.minRunEvent + ((e.2 - m.getPosition m.minRunEvent).setWidth 32).signExtend 64) = e.2 := by
    split
    · rfl
    · rename_i h
      rcases hpos with h' | h'
      · have hb : 0 ≤ (m.getPosition m.minRunEvent).toInt ∧ (m.getPosition m.minRunEvent).toInt < 2 ^ 31 := by
          have : ∃ x ∈ m.map, m.getPosition m.minRunEvent = x.2 := by
            cases hmm : m.map with
            | nil => rw [hmm] at he; cases he
            | cons x xs =>
              refine ⟨x, by simp, ?_⟩
              unfold RunEventMap.getPosition
              rw [RunEvent.ofLong_toLong]
              have : m.minRunEvent = x.1 := by unfold RunEventMap.minRunEvent; rw [hmm]; rfl
              rw [this, omFind_mem RunEvent.strictWeak m.map hinv.ordered x (by rw [hmm]; simp)]
              rfl
          obtain ⟨x, hx, hx2⟩ := this
          rw [hx2]; exact h' x hx
        have he' := h' e he
        have : (e.2 - m.getPosition m.minRunEvent).toInt = e.2.toInt - (m.getPosition m.minRunEvent).toInt := by
          rw [BitVec.toInt_sub, Int.bmod_def]
          split <;> omega
        rw [signExtend_setWidth _ (by omega) (by omega), BitVec.add_comm, BitVec.sub_add_cancel]
      · exact absurd (decide_eq_true h') h
  rw [h1, h2]; rfl

/-- Two runs with headers, three events and a position beyond the last one. -/
def sampleOps : List MapOp :=
  [.add ⟨3, -1⟩ 0, .add ⟨3, 0⟩ 96, .add ⟨3, 7⟩ 5000, .add ⟨4, -1⟩ 9000, .add ⟨4, 2⟩ 9100]

example : (build sampleOps).map.length < 2 ^ 31 ∧ Writable indexName [(build sampleOps).block] ∧
    (∀ e ∈ (build sampleOps).map, 0 ≤ e.1.run.toInt) ∧ (build sampleOps).minRunEvent.run ≠ (build sampleOps).maxRunEvent.run ∧
    (∀ e ∈ (build sampleOps).map, 0 ≤ e.2.toInt ∧ e.2.toInt < 2 ^ 31) := by decide +kernel

/-- **C25** fails when the run numbers of the first and the last entry are the same but there are others: a file with a header of
run 3, one of run 5, and an event of run 3. The header of run 5 comes back as a second header of run 3, so that run 5 cannot be
found. -/
theorem C25_fails_for_enclosed_run (buf : Str) :
    storeLoad indexName buf 0 [(build [.add ⟨3, -1⟩ 0, .add ⟨5, -1⟩ 96, .add ⟨3, 0⟩ 192]).block] [indexDecoder] 1 =
      .ok [(indexName, [(⟨3, -1⟩, 0), (⟨3, -1⟩, 96), (⟨3, 0⟩, 192)])] ∧
    (({} : RunEventMap).addAll [(⟨3, -1⟩, 0), (⟨3, -1⟩, 96), (⟨3, 0⟩, 192)]).getPosition ⟨5, -1⟩ = npos ∧
    (build [.add ⟨3, -1⟩ 0, .add ⟨5, -1⟩ 96, .add ⟨3, 0⟩ 192]).getPosition ⟨5, -1⟩ = 96 := by
  refine ⟨?_, by decide +kernel, by decide +kernel⟩
  rw [C25_index_exact _ buf 0 1 (by decide +kernel) (by decide +kernel) (by decide +kernel)]
  decide +kernel

/-- **C25** fails when an entry lies 2 GiB or more from the first one but the last one does not: events 0 and 1 are close to the run header
and event 2 (the middle one) at 3 GB. -/
theorem C25_fails_for_far_entry (buf : Str) :
    storeLoad indexName buf 0 [(build [.add ⟨3, -1⟩ 0, .add ⟨3, 1⟩ 96, .add ⟨3, 0⟩ 3000000000]).block] [indexDecoder] 1 =
      .ok [(indexName, [(⟨3, -1⟩, 0), (⟨3, 0⟩, 18446744072414584320), (⟨3, 1⟩, 96)])] := by
  rw [C25_index_exact _ buf 0 1 (by decide +kernel) (by decide +kernel) (by decide +kernel)]
  decide +kernel

/-! ## C26 -/

/-- **C26**. A random access record reads back as it was written, whatever its fields are. -/
theorem C26_round_trip (a : RandomAccess) (buf : Str) (opts : W32) (next : Nat) :
    storeLoad accessName buf opts [a.block] [accessDecoder] next = .ok [(accessName, a)] := by
  apply storeLoad_plain accessName buf opts a.block accessDecoder next a rfl (access_writable a)
  intro φ n
  have := runI_access φ a [] n []
  rw [List.append_nil] at this
  exact this

/-- **C26**. A random access record occupies 136 bytes, the number of bytes the reader goes back from the end of the file, whatever its
fields and options are. -/
theorem C26_size (a : RandomAccess) (buf : Str) (opts : W32) :
    ∃ info bytes, writeRecord accessName buf [a.block] opts = .ok (info, bytes) ∧ bytes.length = 136 ∧ randomAccessSize = 136 := by
  obtain ⟨num, τ, h1, h2⟩ := writeRecord_eq accessName buf [a.block] opts (access_writable a).nameOk (access_writable a).blocks (access_writable a).size
  refine ⟨_, _, h1, ?_, rfl⟩
  rw [withWords_bytes_length, record_length, access_dataLen]
  decide

example : storeLoad accessName [9, 9] 1 [(RandomAccess.block { minRE := ⟨-5, 7⟩, maxRE := ⟨12, 2147483647⟩, nRun := 3, indexLoc := -1, nextLoc := 0x123456789abcdef })]
    [accessDecoder] 4 = .ok [(accessName, { minRE := ⟨-5, 7⟩, maxRE := ⟨12, 2147483647⟩, nRun := 3, indexLoc := -1, nextLoc := 0x123456789abcdef })] :=
  C26_round_trip _ _ _ _

/-! ## C36 -/

/-- **C36**. Parameters that are written anywhere in a buffer and followed by any other writes read back into a new parameters object with the same
keys and values. -/
theorem C36_parameters_round_trip (p : Params) (hp : ParamsOk p) (d : WDev) (hc : d.cur ≤ d.buf.length) (later : List Item) (hl : ∀ i ∈ later, fits i) :
    ∃ d1 d2, d.run p.write = .ok d1 ∧ d1.run later = .ok d2 ∧
      ∀ r : RDev, r.buf = d2.buf → r.cur = d.cur →
        ∃ q r', (Params.read {}).run r = .ok (q, r') ∧ r'.cur = d1.cur ∧ q.ints = p.ints ∧ q.floats = p.floats ∧ q.strs = p.strs := by
  obtain ⟨d1, d2, h1, h2, h3⟩ := run_then_read (Params.read {}) p.write { p with readOnly := false }
    (fun i hi => (plain_params p hp i hi).1) (fun i hi => (plain_params p hp i hi).2)
    (fun n => runI_params _ p hp false [] n []) d hc later hl
  exact ⟨d1, d2, h1, h2, fun r hb hcur => let ⟨r', a, b, _⟩ := h3 r hb hcur; ⟨_, r', a, b, rfl, rfl, rfl⟩⟩

/-- Parameters of all kinds, with an empty vector, an empty string and an empty key. -/
def sampleParams : Params :=
  { ints := [(str "", [1, -2]), (str "a", []), (str "b", [5])], floats := [(str "x", [0x7fc00000, 0x3f800000])], strs := [(str "n", [str "", str "v w"])] }

theorem sampleParams_ok : ParamsOk sampleParams := by
  refine ⟨⟨?_, ?_, ?_, ?_, fun _ _ _ _ => trivial⟩, ⟨?_, ?_, ?_, ?_, fun _ _ _ _ => trivial⟩, ⟨?_, ?_, ?_, ?_, ?_⟩⟩
  all_goals (try unfold Ordered); decide +kernel

/-! ## C37 -/

/-- **C37**. A run header, stored as a record, reads back with the same run number, detector name, description, subdetectors and parameters. -/
theorem C37_run_header_round_trip (h : RunHeader) (hok : RunHeaderOk h) (hw : Writable runRecordName [h.block]) (buf : Str) (opts : W32) (next : Nat) :
    ∃ h', storeLoad runRecordName buf opts [h.block] [runDecoder] next = .ok [(runBlockName, h')] ∧
      h'.run = h.run ∧ h'.det = h.det ∧ h'.descr = h.descr ∧ h'.subdets = h.subdets ∧
      h'.params.ints = h.params.ints ∧ h'.params.floats = h.params.floats ∧ h'.params.strs = h.params.strs := by
  refine ⟨{ h with params := { h.params with readOnly := false } }, ?_, rfl, rfl, rfl, rfl, rfl, rfl, rfl⟩
  apply storeLoad_plain runRecordName buf opts h.block runDecoder next _ rfl hw
  intro φ n
  have := runI_runHeader φ h hok [] n []
  rw [List.append_nil] at this
  exact this

def sampleRun : RunHeader := { run := -7, det := str "D09", descr := str "", subdets := [str "TPC", str "", str "ECAL"], params := sampleParams }

example : RunHeaderOk sampleRun ∧ Writable runRecordName [sampleRun.block] :=
  ⟨⟨by decide, by decide, by decide, by decide, sampleParams_ok⟩, by decide +kernel⟩

/-! ## C38 -/

/-- **C38** for events whose stored collections have no type name with "_References" in it, except for subset collections. Run and event number, time
stamp, detector name and parameters read back, and the list of collections has exactly the stored ones (the ones not transient and, if the
writer was given a list of names, on that list) that the reader wants, in order, with name and type. What is missing: other type names, for which
the property fails (`C38_fails_for_postfix_in_type`). -/
theorem C38_event_header_round_trip_partial (e : EventHeader) (only wanted : List Str) (hok : EventHeaderOk e)
    (hr : ∀ c ∈ stored only e, c.2.flag.getLsbD 18 = false → ¬ occursIn (str "_References") c.2.type)
    (hw : Writable headerRecordName [e.block only]) (buf : Str) (opts : W32) (next : Nat) :
    ∃ e', storeLoad headerRecordName buf opts [e.block only] [headerDecoder wanted] next = .ok [(headerBlockName, e')] ∧
      e'.run = e.run ∧ e'.evt = e.evt ∧ e'.time = e.time ∧ e'.det = e.det ∧
      e'.params.ints = e.params.ints ∧ e'.params.floats = e.params.floats ∧ e'.params.strs = e.params.strs ∧
      e'.cols.map (fun c => (c.1, c.2.type)) =
        ((stored only e).filter fun c => wanted.isEmpty || wanted.contains c.1).map (fun c => (c.1, c.2.type)) := by
  refine ⟨{ e with params := { e.params with readOnly := false },
                   cols := ((stored only e).filter fun c => wanted.isEmpty || wanted.contains c.1).map fun c => (c.1, ⟨c.2.type, 0⟩) },
    ?_, rfl, rfl, rfl, rfl, rfl, rfl, rfl, ?_⟩
  · apply storeLoad_plain headerRecordName buf opts (e.block only) (headerDecoder wanted) next _ rfl hw
    intro φ n
    have := runI_eventHeader φ only wanted e hok hr [] n []
    rw [List.append_nil] at this
    exact this
  · simp [Function.comp_def]

def sampleEvent : EventHeader :=
  { run := 4, evt := 17, time := 1234567890123456789, det := str "D09", params := sampleParams,
    cols := [(str "A", ⟨str "MCParticle", 0⟩), (str "B", ⟨str "MCParticle", 0x40000⟩), (str "C", ⟨str "TPCHit", 0x10000⟩), (str "D", ⟨str "my_type", 0x80000000⟩)] }

/-- The collection `C` is transient, `B` is a subset. -/
example : EventHeaderOk sampleEvent ∧ Writable headerRecordName [sampleEvent.block []] ∧
    (stored [] sampleEvent).map (·.1) = [str "A", str "B", str "D"] ∧
    (stored [str "B", str "C", str "X"] sampleEvent).map (·.1) = [str "B"] ∧
    (∀ c ∈ stored [] sampleEvent, c.2.flag.getLsbD 18 = false → ¬ occursIn (str "_References") c.2.type) :=
  ⟨⟨by decide, by decide, by unfold Ordered; decide +kernel, by decide +kernel, by decide +kernel, sampleParams_ok⟩, by decide +kernel, by decide +kernel, by decide +kernel, by
    rintro c hc _ ⟨a, b, h⟩
    have h1 : ∀ c ∈ stored [] sampleEvent, c.2.type.length < 11 := by decide +kernel
    have h2 := h1 c hc
    rw [h, List.length_append, List.length_append, show (str "_References").length = 11 from rfl] at h2
    omega⟩

/-- **C38** fails for a collection whose type name contains "_References" without being a subset: the type name is cut. -/
theorem C38_fails_for_postfix_in_type :
    (storeLoad headerRecordName [] 0 [EventHeader.block [] { cols := [(str "A", ⟨str "My_ReferencesType", 0⟩)] }] [headerDecoder []] 1).map
      (fun l => l.map fun x => x.2.cols.map fun c => (c.1, c.2.type)) = .ok [[(str "A", str "My")]] := by decide +kernel

end Props
