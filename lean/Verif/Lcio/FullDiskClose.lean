import Verif.Lcio.FullDiskLemmas
import Verif.Lcio.History
/-
What `close` throws on a full disk.
-/
namespace Lcio
open Sio Spec

/-- What is added to the index by a call: nothing, or the key of what is written. -/
theorem put_adds (codec : Codec) (std : Std Pid) (compress : Bool) (w : LimWriter) (p : Put) :
    ∃ l : List (RunEvent × W64), (w.put codec std compress p).2.ra.map = w.ra.map.addAll l ∧ l.length ≤ 1 ∧ ∀ x ∈ l, x.1 = p.key := by
  have none : ∃ l : List (RunEvent × W64), w.ra.map = w.ra.map.addAll l ∧ l.length ≤ 1 ∧ ∀ x ∈ l, x.1 = p.key := ⟨[], rfl, by simp, by simp⟩
  have one : ∀ n : Nat, ∃ l : List (RunEvent × W64), (w.ra.add p.key n).map = w.ra.map.addAll l ∧ l.length ≤ 1 ∧ ∀ x ∈ l, x.1 = p.key :=
    fun n => ⟨[(p.key, BitVec.ofNat 64 n)], rfl, by simp, by simp⟩
  cases p with
  | run h buf =>
    simp only [LimWriter.put, LimWriter.writeRunHeader]
    cases hs : w.stream with
    | none => exact none
    | some t =>
      simp only
      cases hj : limWriteJob codec buf t ⟨runRecordName, 0, [h.block], compress⟩ with
      | mk r t' =>
        cases r with
        | error e => exact none
        | ok info => exact one _
  | event h cols buf =>
    simp only [LimWriter.put, LimWriter.writeEvent]
    cases hs : w.stream with
    | none => exact none
    | some t =>
      simp only
      cases hj : limWriteJob codec buf.1 t ⟨headerRecordName, 0, [EventHeader.block [] { h with cols := colHeads cols }], compress⟩ with
      | mk r t' =>
        cases r with
        | error e => exact none
        | ok info =>
          simp only
          cases hj' : limWriteJob codec buf.2 t' ⟨eventRecordName, 0, eventBlocks std [] cols, compress⟩ with
          | mk r' t'' => cases r' <;> exact one _

theorem putAll_adds (codec : Codec) (std : Std Pid) (compress : Bool) (ps : List Put) : ∀ w : LimWriter,
    ∃ l : List (RunEvent × W64), (w.putAll codec std compress ps).2.ra.map = w.ra.map.addAll l ∧ l.length ≤ ps.length ∧ ∀ x ∈ l, x.1 ∈ ps.map Put.key := by
  induction ps with
  | nil => intro w; exact ⟨[], rfl, by simp, by simp⟩
  | cons p ps ih =>
    intro w
    obtain ⟨a, a1, a2, a3⟩ := put_adds codec std compress w p
    obtain ⟨b, b1, b2, b3⟩ := ih (w.put codec std compress p).2
    refine ⟨a ++ b, ?_, by rw [List.length_append, List.length_cons]; omega, ?_⟩
    · simp only [LimWriter.putAll]
      rw [b1, a1]
      simp [RunEventMap.addAll, List.foldl_append]
    · intro x hx
      rw [List.map_cons]
      rcases List.mem_append.1 hx with h | h
      · rw [a3 x h]; exact List.mem_cons_self
      · exact List.mem_cons_of_mem _ (b3 x h)

theorem put_stream {codec : Codec} {std : Std Pid} {compress : Bool} (w : LimWriter) (p : Put) {t : LimStream} (h : w.stream = some t) : ∃ t', (w.put codec std compress p).2.stream = some t' := by
  cases p with
  | run hd buf =>
    simp only [LimWriter.put, LimWriter.writeRunHeader, h]
    cases hj : limWriteJob codec buf t ⟨runRecordName, 0, [hd.block], compress⟩ with
    | mk r t' => cases r <;> exact ⟨_, rfl⟩
  | event hd cols buf =>
    simp only [LimWriter.put, LimWriter.writeEvent, h]
    cases hj : limWriteJob codec buf.1 t ⟨headerRecordName, 0, [EventHeader.block [] { hd with cols := colHeads cols }], compress⟩ with
    | mk r t' =>
      cases r with
      | error e => exact ⟨_, rfl⟩
      | ok info =>
        simp only
        cases hj' : limWriteJob codec buf.2 t' ⟨eventRecordName, 0, eventBlocks std [] cols, compress⟩ with
        | mk r' t'' => cases r' <;> exact ⟨_, rfl⟩

theorem putAll_stream {codec : Codec} {std : Std Pid} {compress : Bool} (ps : List Put) : ∀ (w : LimWriter) {t : LimStream}, w.stream = some t →
    ∃ t', (w.putAll codec std compress ps).2.stream = some t' := by
  induction ps with
  | nil => intro w t h; exact ⟨t, h⟩
  | cons p ps ih =>
    intro w t h
    obtain ⟨t', h'⟩ := put_stream (codec := codec) (std := std) (compress := compress) w p h
    exact ih _ h'

/-- A failure to write that is an exception. -/
def DiskError (e : Err) : Prop := e = .ioFailure ∨ e = .badState

theorem limWriteRecordTo_error (t : LimStream) (rec : List Byte) (info : RecordInfo) (e : Err) (h : (limWriteRecordTo t rec info).1 = .error e) : DiskError e := by
  unfold limWriteRecordTo at h
  split at h
  · injection h with h; exact .inr h.symm
  · simp only at h
    split at h
    · injection h with h; exact .inl h.symm
    · unfold limPad at h
      simp only at h
      generalize (if padBytes rec.length > 0 then (t.write rec).write (zeros (padBytes rec.length)) else t.write rec) = u at h
      split at h
      · injection h with h; exact .inl h.symm
      · cases h

theorem limWriteOne_error (m : RaMgr) (t : LimStream) (name : Str) (b : WBlock) (hw : Writable name [b]) (e : Err) (h : (m.limWriteOne t name b).1 = .error e) : DiskError e := by
  obtain ⟨data, num, τ, -, -, -, h1⟩ := writeRecord_rec name m.buf [b] 0 hw
  unfold RaMgr.limWriteOne at h
  rw [h1] at h
  exact limWriteRecordTo_error _ _ _ _ h

/-- If the index can be written, only the exceptions of a full disk are thrown. -/
theorem records_error (m : RaMgr) (t : LimStream) (hw : Writable indexName [m.map.block]) (e : Err) (h : (m.limWriteRandomAccessRecords t).1 = .error e) : DiskError e := by
  unfold RaMgr.limWriteRandomAccessRecords at h
  split at h
  · cases h
  · have h1 := limWriteOne_error m t indexName m.map.block hw
    cases l1 : m.limWriteOne t indexName m.map.block with
    | mk r1 y1 =>
    obtain ⟨t1, m1⟩ := y1
    rw [l1] at h h1
    cases r1 with
    | error e1 => injection h with h; subst h; exact h1 _ rfl
    | ok info =>
      simp only at h
      generalize hra : ({ m1.createFromEventMap with
        indexLoc := BitVec.ofNat 64 info.fileStart
        firstLoc := BitVec.ofNat 64 t1.s.pos
        prevLoc := ((m1.list.getLast?).map (·.firstLoc)).getD 0 } : RandomAccess) = ra at h
      have h2 := limWriteOne_error { m1 with list := m1.list ++ [ra] } t1 accessName ra.block (access_writable ra)
      cases l2 : ({ m1 with list := m1.list ++ [ra] } : RaMgr).limWriteOne t1 accessName ra.block with
      | mk r2 y2 =>
      obtain ⟨t2, m2⟩ := y2
      rw [l2] at h h2
      cases r2 with
      | error e2 => injection h with h; subst h; exact h2 _ rfl
      | ok info2 =>
        simp only at h
        generalize ({ m2.createFileRecord with
          nextLoc := if m2.createFileRecord.nextLoc.slt (BitVec.ofNat 64 t1.s.pos) then BitVec.ofNat 64 t1.s.pos else m2.createFileRecord.nextLoc
          prevLoc := if (BitVec.ofNat 64 t1.s.pos).slt m2.createFileRecord.prevLoc then BitVec.ofNat 64 t1.s.pos else m2.createFileRecord.prevLoc } : RandomAccess) = f at h
        have h3 := limWriteOne_error { m2 with file := some f } t2 accessName f.block (access_writable f)
        cases l3 : ({ m2 with file := some f } : RaMgr).limWriteOne t2 accessName f.block with
        | mk r3 y3 =>
        obtain ⟨t3, m3⟩ := y3
        rw [l3] at h h3
        cases r3 with
        | error e3 => injection h with h; subst h; exact h3 _ rfl
        | ok info3 => cases h

/-- A writer that was opened with an empty index: what `close` throws after any calls, whether they failed or not. -/
theorem close_disk_error (codec : Codec) (std : Std Pid) (s : Session) (hs : s.Ok codec std) (hn : s.puts.length < 2 ^ 27) (w : LimWriter) (t : LimStream) (hw : (w.putAll codec std s.compress s.puts).2.stream = some t)
    (hm : w.ra.map = {}) (e : Err) (h : (w.putAll codec std s.compress s.puts).2.close.1 = .error e) : DiskError e := by
  obtain ⟨l, l1, l2, l3⟩ := putAll_adds codec std s.compress s.puts w
  rw [hm] at l1
  have hc : RunsClose (l.map (·.1)) := by
    intro a ha b hb
    obtain ⟨x, hx, rfl⟩ := List.mem_map.1 ha
    obtain ⟨y, hy, rfl⟩ := List.mem_map.1 hb
    exact runsClose_of _ hs.runs _ (l3 x hx) _ (l3 y hy)
  have hwr := index_writable l (by omega) hc
  rw [← l1] at hwr
  generalize (w.putAll codec std s.compress s.puts).2 = v at hw h hwr
  unfold LimWriter.close at h
  rw [hw] at h
  simp only at h
  have hr := records_error v.ra t hwr
  cases hl : v.ra.limWriteRandomAccessRecords t with
  | mk r y =>
  obtain ⟨t', n'⟩ := y
  rw [hl] at h hr
  cases r with
  | error e' => simp only at h; injection h with h; subst h; exact hr _ rfl
  | ok u => cases h

theorem append_empty (codec : Codec) (std : Std Pid) (cs : List Chunk) (last : Option RandomAccess) (a : RandomAccess) (hh : History codec std cs last (some a)) (hn : (cs.flatMap Chunk.puts).length < 2 ^ 27)
    (r : Rec) (hr : IsAccess r a) (w : Writer) (hi : Idle w) (w0 : Writer) (h0 : w.openAppend codec (some (fileOf (recsOf cs) ++ r.wire)) = .ok w0) : w0.ra.map = {} := by
  have hsz := history_size codec std cs last (some a) hh hn
  obtain ⟨buf, i1, i2⟩ := initAppend_eq codec std cs last a hh (by omega) r hr w.ra hi.list codec
  unfold Writer.openAppend at h0
  simp only at h0
  cases hia : w.ra.initAppend codec { bytes := fileOf (recsOf cs) ++ r.wire } with
  | mk x1 y =>
  obtain ⟨x2, x3⟩ := y
  rw [hia] at h0 i1 i2
  simp only at i1 i2
  subst i1 i2
  rw [hi.stream] at h0
  simp only [if_true] at h0
  by_cases hb : (fileOf (recsOf cs) ++ r.wire).length < randomAccessSize
  · rw [if_pos hb] at h0; cases h0
  · rw [if_neg hb] at h0
    have h1 := congrArg (fun x => match x with | .ok (v : Writer) => v.ra.map | .error _ => {}) h0
    exact h1.symm.trans hi.map

/-- After some sessions the index is empty, also when the file has been opened again. -/
theorem opened_empty (codec : Codec) (hcodec : Lossless codec) (std : Std Pid) (ss : List Session) (s : Session) (hs : SessionsOk codec std (ss ++ [s])) (w : Writer) (old : Option (List Byte))
    (h : runSessions codec std {} none ss = .ok (w, old)) (w0 : Writer) (h0 : (match old with
      | none => w.openNew
      | some bytes => w.openAppend codec (some bytes)) = .ok w0) : w0.ra.map = {} := by
  have hcount := hs.count
  have hall : allPuts (ss ++ [s]) = allPuts ss ++ s.puts := by simp [allPuts]
  rw [hall, List.length_append] at hcount
  have hx : ∃ cs last f, (cs.flatMap Chunk.puts).length < 2 ^ 27 ∧ Idle w ∧ Content codec std cs last f old := by
    cases ss with
    | nil =>
      injection h with h
      injection h with h1 h2
      subst h1 h2
      exact ⟨[], none, none, by simp, ⟨rfl, rfl, rfl, rfl⟩, .none .nil rfl⟩
    | cons s0 ss =>
      obtain ⟨s', rest, e1, e2⟩ := hs.first
      simp only [List.cons_append, List.cons.injEq] at e1
      obtain ⟨cs, last, f, w', bytes, h1, h2, h3, h4⟩ := sessions_content codec hcodec std (s0 :: ss) (fun x hx => hs.each x (List.mem_append_left _ hx)) [] none none none (.none .nil rfl) {}
        ⟨rfl, rfl, rfl, rfl⟩ (.inr ⟨s0, ss, rfl, by rw [e1.1]; exact e2⟩) (by simp; omega)
      rw [h2] at h
      injection h with h
      injection h with g1 g2
      subst g1 g2
      refine ⟨cs, last, f, ?_, h3, by simpa using h4⟩
      have e : cs.flatMap Chunk.puts = allPuts (s0 :: ss) := by
        rw [List.flatMap, h1]
        have a : ∀ l : List (List Put), (l.filter fun l => !l.isEmpty).flatten = l.flatten := by
          intro l
          induction l with
          | nil => rfl
          | cons x l ih => cases x <;> simp_all
        rw [a]
        rfl
      rw [e]
      omega
  obtain ⟨cs, last, f, hn, hi, hc⟩ := hx
  clear h hcount hall hs
  cases hc with
  | none hh he =>
    simp only [Writer.openNew, hi.stream] at h0
    injection h0 with h0
    subst h0
    exact hi.map
  | some hh a ha r hr =>
    subst ha
    exact append_empty codec std cs last a hh hn r hr w hi w0 h0

end Lcio
