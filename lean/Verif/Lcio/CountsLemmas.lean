import Verif.Lcio.Counts
import Verif.Lcio.DirectLemmas
import Verif.Lcio.DamageCalls
/-
Lemmas for C85: what calls of a reader do not change.
-/
namespace Lcio
open Sio Spec

theorem readRecordData_bytes (s : IStream) (info : RecordInfo) (buf : List Byte) (n : Nat) : (readRecordData s info buf n).2.1.bytes = s.bytes := by
  unfold readRecordData
  simp only
  repeat' split
  all_goals first | rfl | simp only [read_bytes, seekg_bytes]

/-- Reading records does not change the file. -/
theorem readRecords_bytes {σ : Type} (valid : σ → RecordInfo → σ × Bool) (func : σ → RecordInfo → List Byte → σ × Except Err Bool) :
    ∀ fuel st (s : IStream) buf, (readRecords valid func fuel st s buf).2.2.1.bytes = s.bytes
  | 0, st, s, buf => rfl
  | fuel+1, st, s, buf => by
    have hi := (readRecordInfo_any s buf).1
    unfold readRecords
    split
    · rename_i e s1 b1 h1
      rw [h1] at hi; exact hi
    · rename_i info s1 b1 h1
      rw [h1] at hi
      split
      · have hd := readRecordData_bytes s1 info b1 info.headerLength
        split
        · rename_i h2
          rw [h2] at hd; exact hd.trans hi
        · rename_i s2 b2 h2
          rw [h2] at hd
          split
          · exact hd.trans hi
          · split
            · exact hd.trans hi
            · rw [readRecords_bytes valid func fuel]; exact hd.trans hi
            · exact hd.trans hi
      · rw [readRecords_bytes valid func fuel, seekg_bytes]; exact hi

/-- What calls of a reader on its last file leave as it is. -/
structure Same (r r' : Reader) : Prop where
  files : r'.files = r.files
  index : r'.index = r.index
  readMap : r'.readMap = r.readMap
  ra : r'.ra = r.ra
  bytes : r'.stream.bytes = r.stream.bytes

theorem Same.rfl' (r : Reader) : Same r r := ⟨rfl, rfl, rfl, rfl, rfl⟩

theorem Same.trans {a b c : Reader} (h : Same a b) (h' : Same b c) : Same a c :=
  ⟨h'.files.trans h.files, h'.index.trans h.index, h'.readMap.trans h.readMap, h'.ra.trans h.ra, h'.bytes.trans h.bytes⟩

theorem Same.hasNext {a b : Reader} (h : Same a b) : b.hasNext = a.hasNext := by
  unfold Reader.hasNext; rw [h.files, h.index]

theorem readNextEvent_same (cfg : RConfig) (r : Reader) (hn : r.hasNext = false) : Same r (r.readNextEvent cfg).2 := by
  unfold Reader.readNextEvent Reader.readNextEventLoop
  have hb := readRecords_bytes (fun (st : EventState) i => (st, isEventRecord i)) (eventProcessor cfg) (recordFuel r.stream) {} r.stream r.buf
  split
  · rename_i he
    rw [he] at hb
    simp only
    split
    · exact ⟨rfl, rfl, rfl, rfl, hb⟩
    · split <;> exact ⟨rfl, rfl, rfl, rfl, hb⟩
  · rename_i he
    rw [he] at hb
    have : ∀ s b, ({ r with stream := s, buf := b } : Reader).hasNext = false := fun _ _ => hn
    simp only [this, Bool.false_eq_true, if_false]
    exact ⟨rfl, rfl, rfl, rfl, hb⟩
  · rename_i he
    rw [he] at hb
    exact ⟨rfl, rfl, rfl, rfl, hb⟩

theorem readNextRun_same (cfg : RConfig) (r : Reader) (hn : r.hasNext = false) : Same r (r.readNextRunHeader cfg).2 := by
  unfold Reader.readNextRunHeader Reader.readNextRunLoop
  have hb := readRecords_bytes (fun (st : Option RunHeader) i => (st, i.name == runRecordName)) (runProcessor cfg r.fileName) (recordFuel r.stream) none r.stream r.buf
  split
  · rename_i he
    rw [he] at hb
    exact ⟨rfl, rfl, rfl, rfl, hb⟩
  · rename_i he
    rw [he] at hb
    have : ∀ s b, ({ r with stream := s, buf := b } : Reader).hasNext = false := fun _ _ => hn
    simp only [this, Bool.false_eq_true, if_false]
    exact ⟨rfl, rfl, rfl, rfl, hb⟩
  · rename_i he
    rw [he] at hb
    exact ⟨rfl, rfl, rfl, rfl, hb⟩

theorem call_same (cfg : RConfig) (g : Get) (r : Reader) (hn : r.hasNext = false) : Same r (g.call cfg r).2 := by
  cases g with
  | event =>
    have h := readNextEvent_same cfg r hn
    simp only [Get.call]
    split <;> rename_i he <;> rw [he] at h <;> exact h
  | run =>
    have h := readNextRun_same cfg r hn
    simp only [Get.call]
    split <;> rename_i he <;> rw [he] at h <;> exact h

theorem gets_same (cfg : RConfig) (gs : List Get) (r : Reader) (hn : r.hasNext = false) : Same r (afterGets cfg gs r) := by
  induction gs generalizing r with
  | nil => exact .rfl' r
  | cons g gs ih =>
    have h := call_same cfg g r hn
    unfold afterGets
    split <;> rename_i he <;> rw [he] at h
    · exact h
    · exact h
    · exact h.trans (ih _ (h.hasNext.trans hn))

/-- The event map does not depend on where a reader stands. -/
theorem createEventMap_pos (codec : Codec) (m : RaMgr) (B : List Byte) (q : Nat) : m.createEventMap codec (ready B q) = m.createEventMap codec (ready B 0) := by
  unfold RaMgr.createEventMap RaMgr.readAccessAt
  have h : seekStream (ready B q) (-(randomAccessSize : Int)) = seekStream (ready B 0) (-(randomAccessSize : Int)) := by
    have hneg : (-(randomAccessSize : Int)) < 0 := by decide
    unfold seekStream
    simp only [Bool.not_true, Bool.false_eq_true, if_false, hneg, if_true]
  rw [h]

/-- After the end of the file the event map cannot be made. -/
theorem createEventMap_failed (codec : Codec) (m : RaMgr) (s : IStream) (h : s.fail = true) : ∃ s', m.createEventMap codec s = (.error .ioException, s', m) := by
  have hs : ∃ s', seekStream s (-(randomAccessSize : Int)) = (.error .ioException, s') := by
    have hneg : (-(randomAccessSize : Int)) < 0 := by decide
    unfold seekStream
    rw [if_pos hneg, if_pos h]
    split <;> exact ⟨_, rfl⟩
  obtain ⟨s', hs⟩ := hs
  refine ⟨s', ?_⟩
  unfold RaMgr.createEventMap RaMgr.readAccessAt
  rw [hs]

theorem distinct_length {α : Type} [DecidableEq α] (l : List α) : (distinct l).length ≤ l.length ∧ ((distinct l).length = l.length ↔ l.Nodup) := by
  induction l with
  | nil => simp [distinct]
  | cons b l ih =>
    unfold distinct
    split
    · rename_i hb
      refine ⟨by rw [List.length_cons]; omega, ?_⟩
      rw [List.nodup_cons, List.length_cons]
      exact ⟨fun h => by omega, fun h => absurd hb h.1⟩
    · rename_i hb
      refine ⟨by simp only [List.length_cons]; omega, ?_⟩
      rw [List.nodup_cons, List.length_cons, List.length_cons]
      exact ⟨fun h => ⟨hb, ih.2.1 (by omega)⟩, fun h => by rw [ih.2.2 h.2]⟩

/-- Two lists without repetitions with the same members. -/
theorem length_of_members {α : Type} (a b : List α) (ha : a.Nodup) (hb : b.Nodup) (h : ∀ x, x ∈ a ↔ x ∈ b) : a.length = b.length :=
  ((List.perm_ext_iff_of_nodup ha hb).2 h).length_eq

end Lcio
