import Verif.Lcio.FullDisk
import Verif.Sio.FileLemmas
/-
A stream on a disk that becomes full against one on a disk that does not.
-/
namespace Lcio
open Sio Spec

theorem overwrite_length (l : List Byte) (off : Nat) (new : List Byte) : (overwrite l off new).length = max l.length (off + new.length) := by
  unfold overwrite
  rw [List.length_append, List.length_append, resize_length, List.length_drop]
  omega

theorem OStream.write_bytes_length (s : OStream) (b : List Byte) (h : s.pos ≤ s.bytes.length) : (s.write b).bytes.length = max s.bytes.length (s.pos + b.length) := by
  unfold OStream.write
  by_cases hb : b.isEmpty
  · have : b = [] := List.isEmpty_iff.1 hb
    subst this
    simp only [List.isEmpty_nil, if_true, List.length_nil]; omega
  · simp only [hb]
    exact overwrite_length _ _ _

/-- The stream of the full disk (first) and of the other one (second), with the same writes. -/
structure Twin (t : LimStream) (s : OStream) : Prop where
  inside : s.pos ≤ s.bytes.length
  same : t.good = true → t.s = s ∧ s.bytes.length ≤ t.limit
  cut : t.good = false → t.s.bytes = s.bytes.take t.limit ∧ t.limit < s.pos ∧ s.pos = s.bytes.length

theorem resize_of_le (l : List Byte) (n : Nat) (h : n ≤ l.length) : resize l n = l.take n := by
  unfold resize
  rw [show n - l.length = 0 by omega]
  simp [zeros]

theorem twin_write {t : LimStream} {s : OStream} (h : Twin t s) (b : List Byte) :
    Twin (t.write b) (s.write b) ∧ (t.write b).limit = t.limit ∧ ((t.write b).good = true → t.good = true) := by
  have hlen := OStream.write_bytes_length s b h.inside
  have hpos : (s.write b).pos = s.pos + b.length := rfl
  have hin : (s.write b).pos ≤ (s.write b).bytes.length := by rw [hpos, hlen]; omega
  unfold LimStream.write
  cases hg : t.good with
  | false =>
    obtain ⟨c1, c2, c3⟩ := h.cut hg
    refine ⟨⟨hin, ?_, ?_⟩, rfl, ?_⟩
    · intro hx; simp [hg] at hx
    · intro _
      simp only [Bool.not_false, if_true]
      refine ⟨?_, by rw [hpos]; omega, by rw [hpos, hlen]; omega⟩
      have hw : s.write b = { bytes := s.bytes ++ b, pos := (s.bytes ++ b).length } := by
        have := OStream.write_end s.bytes b
        rw [← c3] at this
        exact this
      rw [hw, c1, List.take_append_of_le_length (by omega)]
    · simp [hg]
  | true =>
    obtain ⟨s1, s2⟩ := h.same hg
    simp only [Bool.not_true, Bool.false_eq_true, if_false]
    by_cases hf : t.s.pos + b.length ≤ t.limit
    · rw [if_pos hf]
      rw [s1] at hf
      refine ⟨⟨hin, ?_, ?_⟩, rfl, fun _ => trivial⟩
      · intro _
        refine ⟨by rw [s1], ?_⟩
        rw [hlen]; show _ ≤ t.limit; omega
      · intro hx
        exact absurd hx (by simp)
    · rw [if_neg hf]
      rw [s1] at hf ⊢
      refine ⟨⟨hin, ?_, ?_⟩, rfl, fun hx => by cases hx⟩
      · intro hx; cases hx
      · intro _
        refine ⟨?_, by rw [hpos]; show t.limit < _; omega, by rw [hpos, hlen]; omega⟩
        show (s.write (b.take (t.limit - s.pos))).bytes = (s.write b).bytes.take t.limit
        have hp := h.inside
        have hne : b ≠ [] := by rintro rfl; simp at hf; omega
        unfold OStream.write
        simp only [List.isEmpty_iff, hne, if_false, List.take_eq_nil_iff]
        by_cases hz : t.limit - s.pos = 0
        · simp only [hz, or_false, if_true]
          have e : s.pos = t.limit := by omega
          have e2 : s.bytes.length = s.pos := by omega
          unfold overwrite
          rw [List.drop_eq_nil_of_le (by omega), List.append_nil, resize_of_le _ _ hp, ← e2, List.take_length, List.take_append_of_le_length (by omega), List.take_of_length_le (by omega)]
        · simp only [hz, or_false, if_false]
          unfold overwrite
          have hbl : (b.take (t.limit - s.pos)).length = t.limit - s.pos := by rw [List.length_take]; omega
          have e1 : (s.bytes.take s.pos).take t.limit = s.bytes.take s.pos := by rw [List.take_take, Nat.min_eq_right (by omega)]
          have e2 : (s.bytes.take s.pos).length = s.pos := by rw [List.length_take]; omega
          rw [resize_of_le _ _ hp, hbl, List.drop_eq_nil_of_le (by omega), List.append_nil, List.drop_eq_nil_of_le (by omega), List.append_nil, List.take_append, e1, e2]

theorem twin_good_iff {t : LimStream} {s : OStream} (h : Twin t s) : t.good = true ↔ s.pos ≤ t.limit := by
  constructor
  · intro hg
    have := (h.same hg).2
    have := h.inside
    omega
  · intro hle
    cases hg : t.good with
    | true => rfl
    | false => have := (h.cut hg).2.1; omega

/-- What a call does on the full disk. -/
def failure (good : Bool) : Err := if good then .ioFailure else .badState

structure Outcome {α : Type} (t : LimStream) (r : Except Err α) (t' : LimStream) (s' : OStream) (x : α) : Prop where
  twin : Twin t' s'
  limit : t'.limit = t.limit
  fine : t'.good = true → t.good = true ∧ r = .ok x
  bad : t'.good = false → r = .error (failure t.good)

theorem limPad_done {t : LimStream} {s : OStream} (h : Twin t s) (hg : t.good = true) (n start : Nat) (info : RecordInfo) :
    Outcome t (limPad t n start info).1 (limPad t n start info).2 (if padBytes n > 0 then s.write (zeros (padBytes n)) else s)
      { info with fileStart := start, fileEnd := (if padBytes n > 0 then s.write (zeros (padBytes n)) else s).pos } := by
  unfold limPad
  by_cases hp : padBytes n > 0
  · simp only [hp, if_true]
    obtain ⟨w1, w2, w3⟩ := twin_write h (zeros (padBytes n))
    cases hg' : (t.write (zeros (padBytes n))).good with
    | true =>
      simp only [Bool.not_true, Bool.false_eq_true, if_false]
      refine ⟨w1, w2, fun _ => ⟨hg, ?_⟩, fun hx => ?_⟩
      · rw [(w1.same hg').1]
      · rw [hg'] at hx; cases hx
    | false =>
      simp only [Bool.not_false, if_true]
      refine ⟨w1, w2, fun hx => ?_, fun _ => by rw [failure, hg]; rfl⟩
      rw [hg'] at hx; cases hx
  · simp only [hp, if_false]
    simp only [hg, Bool.not_true, Bool.false_eq_true, if_false]
    refine ⟨h, rfl, fun _ => ⟨hg, ?_⟩, fun hx => ?_⟩
    · rw [(h.same hg).1]
    · rw [hg] at hx; cases hx

theorem twin_more {t : LimStream} {s : OStream} (h : Twin t s) (hg : t.good = false) (b : List Byte) : Twin t (s.write b) := by
  have := (twin_write h b).1
  unfold LimStream.write at this
  simpa [hg] using this

theorem writeRecord_done {t : LimStream} {s : OStream} (h : Twin t s) (rec : List Byte) (info : RecordInfo) :
    Outcome t (limWriteRecordTo t rec info).1 (limWriteRecordTo t rec info).2 (writeRecordTo s rec info).2 (writeRecordTo s rec info).1 := by
  unfold limWriteRecordTo writeRecordTo
  cases hg : t.good with
  | false =>
    simp only [Bool.not_false, if_true]
    refine ⟨?_, rfl, fun hx => ?_, fun _ => by rw [failure, hg]; rfl⟩
    · have h1 := twin_more h hg rec
      split
      · exact twin_more h1 hg _
      · exact h1
    · rw [hg] at hx; cases hx
  | true =>
    simp only [Bool.not_true, Bool.false_eq_true, if_false]
    obtain ⟨w1, w2, w3⟩ := twin_write h rec
    cases hg' : (t.write rec).good with
    | false =>
      simp only [Bool.not_false, if_true]
      refine ⟨?_, w2, fun hx => ?_, fun _ => by rw [failure, hg]; rfl⟩
      · split
        · exact twin_more w1 hg' _
        · exact w1
      · rw [hg'] at hx; cases hx
    | true =>
      simp only [Bool.not_true, Bool.false_eq_true, if_false]
      have d := limPad_done w1 hg' rec.length t.s.pos info
      refine ⟨d.twin, by rw [d.limit, w2], fun hx => ⟨hg, ?_⟩, fun hx => by rw [d.bad hx, hg', hg]⟩
      rw [(d.fine hx).2, (h.same hg).1]

theorem writeRecord2_done {t : LimStream} {s : OStream} (h : Twin t s) (hdr data : List Byte) (info : RecordInfo) :
    Outcome t (limWriteRecordTo2 t hdr data info).1 (limWriteRecordTo2 t hdr data info).2 (writeRecordTo2 s hdr data info).2 (writeRecordTo2 s hdr data info).1 := by
  unfold limWriteRecordTo2 writeRecordTo2
  cases hg : t.good with
  | false =>
    simp only [Bool.not_false, if_true]
    refine ⟨?_, rfl, fun hx => ?_, fun _ => by rw [failure, hg]; rfl⟩
    · have h1 := twin_more (twin_more h hg hdr) hg data
      split
      · exact twin_more h1 hg _
      · exact h1
    · rw [hg] at hx; cases hx
  | true =>
    simp only [Bool.not_true, Bool.false_eq_true, if_false]
    obtain ⟨w1, w2, w3⟩ := twin_write h hdr
    cases hg' : (t.write hdr).good with
    | false =>
      simp only [Bool.not_false, if_true]
      refine ⟨?_, w2, fun hx => ?_, fun _ => by rw [failure, hg]; rfl⟩
      · have h1 := twin_more w1 hg' data
        split
        · exact twin_more h1 hg' _
        · exact h1
      · rw [hg'] at hx; cases hx
    | true =>
      simp only [Bool.not_true, Bool.false_eq_true, if_false]
      obtain ⟨v1, v2, v3⟩ := twin_write w1 data
      cases hg2 : ((t.write hdr).write data).good with
      | false =>
        simp only [Bool.not_false, if_true]
        refine ⟨?_, by rw [v2, w2], fun hx => ?_, fun _ => by rw [failure, hg]; rfl⟩
        · split
          · exact twin_more v1 hg2 _
          · exact v1
        · rw [hg2] at hx; cases hx
      | true =>
        simp only [Bool.not_true, Bool.false_eq_true, if_false]
        have d := limPad_done v1 hg2 data.length t.s.pos info
        refine ⟨d.twin, by rw [d.limit, v2, w2], fun hx => ⟨hg, ?_⟩, fun hx => by rw [d.bad hx, hg2, hg]⟩
        rw [(d.fine hx).2, (h.same hg).1]

theorem writeJob_done {codec : Codec} {buf : List Byte} {t : LimStream} {s s' : OStream} {j : Job} {info : RecordInfo} {bytes : List Byte} (h : Twin t s) (hw : writeJob codec buf s j = .ok (info, bytes, s')) :
    Outcome t (limWriteJob codec buf t j).1 (limWriteJob codec buf t j).2 s' info := by
  unfold writeJob at hw
  unfold limWriteJob
  cases hr : writeRecord j.name buf j.blocks j.opts with
  | error e => rw [hr] at hw; cases hw
  | ok x =>
    obtain ⟨info0, rec⟩ := x
    rw [hr] at hw
    simp only [bind, Except.bind] at hw ⊢
    by_cases hc : j.compress
    · simp only [hc, if_true] at hw ⊢
      cases hcr : compressRecord codec info0 rec with
      | error e => rw [hcr] at hw; cases hw
      | ok y =>
        obtain ⟨info1, rec1, comp⟩ := y
        rw [hcr] at hw
        simp only at hw ⊢
        cases hsp : spanOf rec1 0 info1.headerLength with
        | error e => rw [hsp] at hw; cases hw
        | ok hdr =>
          rw [hsp] at hw
          simp only [pure, Except.pure] at hw ⊢
          injection hw with hw
          injection hw with e1 e2
          injection e2 with e2 e3
          subst e1; subst e3
          exact writeRecord2_done h hdr comp info1
    · simp only [hc] at hw ⊢
      simp only [pure, Except.pure, Bool.false_eq_true, if_false] at hw ⊢
      injection hw with hw
      injection hw with e1 e2
      injection e2 with e2 e3
      subst e1; subst e3
      exact writeRecord_done h rec info0

/-! ## Writers -/

theorem stay_bad {t : LimStream} (hg : t.good = false) (codec : Codec) (buf : List Byte) (j : Job) : (limWriteJob codec buf t j).2 = t := by
  unfold limWriteJob
  split
  · rfl
  · split
    · split
      · rfl
      · split
        · rfl
        · simp [limWriteRecordTo2, hg]
    · simp [limWriteRecordTo, hg]

/-- A writer on the full disk and one on the other disk that did the same. -/
structure Twins (lw : LimWriter) (w : Writer) (t : LimStream) (s : OStream) : Prop where
  lim : lw.stream = some t
  full : w.stream = some s
  twin : Twin t s
  ra : t.good = true → lw.ra = w.ra

theorem omAssign_ne_nil {α β : Type} (lt : α → α → Bool) (k : α) (v : β) (l : List (α × β)) : (omAssign lt k v l).1 ≠ [] := by
  cases l with
  | nil => simp [omAssign]
  | cons x xs =>
    obtain ⟨a, b⟩ := x
    unfold omAssign
    split
    · simp
    · split
      · simp
      · simp

theorem add_ne_nil (m : RaMgr) (re : RunEvent) (pos : Nat) : (m.add re pos).map.map ≠ [] := by
  have h := omAssign_ne_nil RunEvent.lt (RunEvent.ofLong re.toLong) (BitVec.ofNat 64 pos) m.map.map
  unfold RaMgr.add RunEventMap.add
  dsimp only
  split
  · split <;> exact h
  · exact h

theorem put_twins {codec : Codec} {std : Std Pid} {compress : Bool} {lw : LimWriter} {w w' : Writer} {t : LimStream} {s : OStream} (h : Twins lw w t s) (p : Put)
    (hp : p.call codec std compress w = (.ok (), w')) :
    ∃ t' s', Twins (lw.put codec std compress p).2 w' t' s' ∧ t'.limit = t.limit ∧
      (t'.good = true → t.good = true ∧ (lw.put codec std compress p).1 = .ok () ∧ (lw.put codec std compress p).2.ra.map.map ≠ []) ∧
      (t'.good = false → (lw.put codec std compress p).1 = .error (failure t.good)) ∧
      (lw.ra.map.map ≠ [] → (lw.put codec std compress p).2.ra.map.map ≠ []) := by
  cases p with
  | run hd buf =>
    simp only [Put.call, Writer.writeRunHeader, h.full] at hp
    simp only [LimWriter.put, LimWriter.writeRunHeader, h.lim]
    cases hj : writeJob codec buf s ⟨runRecordName, 0, [hd.block], compress⟩ with
    | error e => rw [hj] at hp; injection hp with hp; cases hp
    | ok x =>
      obtain ⟨info, bytes, s'⟩ := x
      rw [hj] at hp
      simp only at hp
      injection hp with _ hp
      subst hp
      have d := writeJob_done h.twin hj
      cases hl : limWriteJob codec buf t ⟨runRecordName, 0, [hd.block], compress⟩ with
      | mk r t' =>
      rw [hl] at d
      simp only at d ⊢
      refine ⟨t', s', ?_⟩
      cases hg : t'.good with
      | true =>
        obtain ⟨f1, f2⟩ := d.fine hg
        rw [f2]
        exact ⟨⟨rfl, rfl, d.twin, fun _ => by rw [h.ra f1]⟩, d.limit, fun _ => ⟨f1, rfl, add_ne_nil _ _ _⟩, fun hx => (by cases hx), fun _ => add_ne_nil _ _ _⟩
      | false =>
        rw [d.bad hg]
        exact ⟨⟨rfl, rfl, d.twin, fun hx => by rw [hg] at hx; cases hx⟩, d.limit, fun hx => (by cases hx), fun _ => rfl, fun hne => hne⟩
  | event hd cols buf =>
    simp only [Put.call, Writer.writeEvent, h.full] at hp
    simp only [LimWriter.put, LimWriter.writeEvent, h.lim]
    cases hj : writeJob codec buf.1 s ⟨headerRecordName, 0, [EventHeader.block [] { hd with cols := colHeads cols }], compress⟩ with
    | error e => rw [hj] at hp; injection hp with hp; cases hp
    | ok x =>
      obtain ⟨info, bytes, s1⟩ := x
      rw [hj] at hp
      simp only at hp
      cases hj2 : writeJob codec buf.2 s1 ⟨eventRecordName, 0, eventBlocks std [] cols, compress⟩ with
      | error e => rw [hj2] at hp; injection hp with hp; cases hp
      | ok x2 =>
        obtain ⟨info2, bytes2, s2⟩ := x2
        rw [hj2] at hp
        simp only at hp
        injection hp with _ hp
        subst hp
        have d := writeJob_done h.twin hj
        cases hl : limWriteJob codec buf.1 t ⟨headerRecordName, 0, [EventHeader.block [] { hd with cols := colHeads cols }], compress⟩ with
        | mk r t1 =>
        rw [hl] at d
        simp only at d ⊢
        have d2 := writeJob_done d.twin hj2
        cases hl2 : limWriteJob codec buf.2 t1 ⟨eventRecordName, 0, eventBlocks std [] cols, compress⟩ with
        | mk r2 t2 =>
        rw [hl2] at d2
        simp only at d2
        cases hg : t1.good with
        | true =>
          obtain ⟨f1, f2⟩ := d.fine hg
          rw [f2]
          simp only [hl2]
          cases hg2 : t2.good with
          | true =>
            obtain ⟨e1, e2⟩ := d2.fine hg2
            rw [e2]
            refine ⟨t2, s2, ⟨rfl, rfl, d2.twin, fun _ => by rw [h.ra f1]⟩, by rw [d2.limit, d.limit], fun _ => ⟨f1, rfl, add_ne_nil _ _ _⟩, fun hx => ?_, fun _ => add_ne_nil _ _ _⟩
            rw [hg2] at hx; cases hx
          | false =>
            rw [d2.bad hg2]
            refine ⟨t2, s2, ⟨rfl, rfl, d2.twin, fun hx => by rw [hg2] at hx; cases hx⟩, by rw [d2.limit, d.limit], fun hx => ?_, fun _ => by rw [hg, f1], fun _ => add_ne_nil _ _ _⟩
            rw [hg2] at hx; cases hx
        | false =>
          rw [d.bad hg]
          -- nothing more is written
          have hstay : Twin t1 s2 := by
            have hb : t2.good = false := by
              cases hx : t2.good with
              | true => have := (d2.fine hx).1; rw [hg] at this; cases this
              | false => rfl
            have c2 := d2.twin.cut hb
            have c1 := d.twin.cut hg
            have hle : s1.bytes.take t1.limit = s2.bytes.take t1.limit := by
              have := (stay_bad hg codec buf.2 ⟨eventRecordName, 0, eventBlocks std [] cols, compress⟩)
              rw [hl2] at this
              simp only at this
              rw [this] at c2
              rw [← c1.1, ← c2.1]
            refine ⟨d2.twin.inside, fun hx => (by rw [hg] at hx; cases hx), fun _ => ⟨by rw [c1.1, hle], ?_, c2.2.2⟩⟩
            rw [← d2.limit]; exact c2.2.1
          refine ⟨t1, s2, ⟨rfl, rfl, hstay, fun hx => by rw [hg] at hx; cases hx⟩, d.limit, fun hx => ?_, fun _ => rfl, fun hne => hne⟩
          rw [hg] at hx; cases hx

/-- Calls one after the other: each one returns normally exactly if the file on the other disk is not beyond the limit after it. -/
theorem putAll_twins {codec : Codec} {std : Std Pid} {compress : Bool} (ps : List Put) : ∀ {lw : LimWriter} {w w' : Writer} {t : LimStream} {s : OStream}, Twins lw w t s →
    Spec.putAll codec std compress w ps = .ok w' →
    ∃ t' s', Twins (lw.putAll codec std compress ps).2 w' t' s' ∧ t'.limit = t.limit ∧ (lw.putAll codec std compress ps).1.length = ps.length ∧
      (lw.ra.map.map ≠ [] → (lw.putAll codec std compress ps).2.ra.map.map ≠ []) ∧
      ∃ k ≤ ps.length, (∀ i, i < k → (lw.putAll codec std compress ps).1[i]? = some (.ok ())) ∧
        (0 < k → (lw.putAll codec std compress ps).2.ra.map.map ≠ []) ∧
        (t'.good = true → t.good = true ∧ k = ps.length) ∧ (t'.good = false → t.good = true → k < ps.length ∧ (lw.putAll codec std compress ps).1[k]? = some (.error .ioFailure)) ∧
        (t.good = false → k = 0) ∧
        (∀ i, (t.good = false ∨ k < i) → i < ps.length → (lw.putAll codec std compress ps).1[i]? = some (.error .badState)) ∧
        ∃ v, Spec.putAll codec std compress w (ps.take k) = .ok v ∧ (t.good = true → ∃ u, v.stream = some u ∧ u.pos ≤ t.limit) := by
  induction ps with
  | nil =>
    intro lw w w' t s h hp
    simp only [Spec.putAll] at hp
    injection hp with hp
    subst hp
    refine ⟨t, s, h, rfl, rfl, fun hne => hne, 0, Nat.le_refl _, fun i hi => absurd hi (by omega), fun hk => absurd hk (by omega), fun hg => ⟨hg, rfl⟩,
      fun hg hg' => (by rw [hg] at hg'; cases hg'), fun _ => rfl, fun i _ hi => absurd hi (by simp), w, rfl, fun hg => ⟨s, h.full, (twin_good_iff h.twin).1 hg⟩⟩
  | cons p ps ih =>
    intro lw w w' t s h hp
    simp only [Spec.putAll] at hp
    cases hc : p.call codec std compress w with
    | mk r w1 =>
    rw [hc] at hp
    cases r with
    | error e => cases hp
    | ok u =>
      cases u
      simp only at hp
      obtain ⟨t1, s1, a1, a2, a3, a4, a5⟩ := put_twins h p hc
      obtain ⟨t2, s2, b1, b2, b3, b4, k, b5, b6, b7, b8, b9, b10, b11, v, b12, b13⟩ := ih a1 hp
      have e : lw.putAll codec std compress (p :: ps) = ((lw.put codec std compress p).1 :: ((lw.put codec std compress p).2.putAll codec std compress ps).1, ((lw.put codec std compress p).2.putAll codec std compress ps).2) := rfl
      rw [e]
      refine ⟨t2, s2, b1, by rw [b2, a2], by simp [b3], fun hne => b4 (a5 hne), ?_⟩
      cases hg1 : t1.good with
      | true =>
        obtain ⟨c1, c2, c3⟩ := a3 hg1
        refine ⟨k + 1, by simp only [List.length_cons]; omega, ?_, fun _ => b4 c3, ?_, ?_, ?_, ?_, v, ?_, ?_⟩
        · intro i hi
          cases i with
          | zero => simp [c2]
          | succ i => simpa using b6 i (by omega)
        · intro hg2
          exact ⟨c1, by rw [List.length_cons, (b8 hg2).2]⟩
        · intro hg2 _
          obtain ⟨d1, d2⟩ := b9 hg2 hg1
          exact ⟨by simp only [List.length_cons]; omega, by simpa using d2⟩
        · intro hgf
          rw [c1] at hgf; cases hgf
        · intro i hi hlt
          rcases hi with hi | hi
          · rw [c1] at hi; cases hi
          · cases i with
            | zero => omega
            | succ i => simpa using b11 i (.inr (by omega)) (by simpa using hlt)
        · simp only [List.take_succ_cons, Spec.putAll, hc]
          exact b12
        · intro _
          obtain ⟨u, u1, u2⟩ := b13 hg1
          exact ⟨u, u1, by rw [← a2]; exact u2⟩
      | false =>
        have hk := b10 hg1
        subst hk
        refine ⟨0, by omega, fun i hi => absurd hi (by omega), fun hx => absurd hx (by omega), ?_, ?_, fun _ => rfl, ?_, w, rfl, ?_⟩
        · intro hg2
          have := (b8 hg2).1
          rw [hg1] at this; cases this
        · intro _ hgt
          refine ⟨by simp, ?_⟩
          rw [a4 hg1, hgt]; rfl
        · intro i hi hlt
          cases i with
          | zero =>
            rcases hi with hi | hi
            · simp only [List.getElem?_cons_zero]; rw [a4 hg1, hi]; rfl
            · omega
          | succ i => simpa using b11 i (.inl hg1) (by simpa using hlt)
        · intro hgt
          exact ⟨s, h.full, (twin_good_iff h.twin).1 hgt⟩

theorem writeOne_done {m m' : RaMgr} {t : LimStream} {s s' : OStream} {name : Str} {b : WBlock} {info : RecordInfo} (h : Twin t s) (hw : m.writeOne s name b = .ok (info, s', m')) :
    Outcome t (m.limWriteOne t name b).1 (m.limWriteOne t name b).2.1 s' info ∧ (m.limWriteOne t name b).2.2 = m' := by
  unfold RaMgr.writeOne at hw
  unfold RaMgr.limWriteOne
  cases hr : writeRecord name m.buf [b] 0 with
  | error e => rw [hr] at hw; cases hw
  | ok x =>
    obtain ⟨info0, bytes⟩ := x
    rw [hr] at hw
    simp only at hw ⊢
    injection hw with hw
    injection hw with e1 e2
    injection e2 with e2 e3
    subst e1; subst e2; subst e3
    exact ⟨writeRecord_done h bytes info0, rfl⟩

theorem stay_bad_one {t : LimStream} (hg : t.good = false) (m : RaMgr) (name : Str) (b : WBlock) : (m.limWriteOne t name b).2.1 = t := by
  unfold RaMgr.limWriteOne
  split
  · rfl
  · simp [limWriteRecordTo, hg]

theorem records_done {m m' : RaMgr} {t : LimStream} {s s' : OStream} (h : Twin t s) (hne : m.map.map ≠ []) (hw : m.writeRandomAccessRecords s = .ok (s', m')) :
    Outcome t (m.limWriteRandomAccessRecords t).1 (m.limWriteRandomAccessRecords t).2.1 s' () := by
  unfold RaMgr.writeRandomAccessRecords at hw
  unfold RaMgr.limWriteRandomAccessRecords
  have hf : m.map.map.isEmpty = false := by simpa using hne
  simp only [hf, Bool.false_eq_true, if_false] at hw ⊢
  cases h1 : m.writeOne s indexName m.map.block with
  | error e => rw [h1] at hw; cases hw
  | ok x1 =>
    obtain ⟨info1, s1, m1⟩ := x1
    rw [h1] at hw
    simp only at hw
    obtain ⟨o1, om1⟩ := writeOne_done h h1
    cases l1 : m.limWriteOne t indexName m.map.block with
    | mk r1 y1 =>
    obtain ⟨t1, n1⟩ := y1
    rw [l1] at o1 om1
    simp only at o1 om1 ⊢
    subst om1
    generalize hra : ({ n1.createFromEventMap with
        indexLoc := BitVec.ofNat 64 info1.fileStart
        firstLoc := BitVec.ofNat 64 s1.pos
        prevLoc := ((n1.list.getLast?).map (·.firstLoc)).getD 0 } : RandomAccess) = ra at hw
    cases h2 : ({ n1 with list := n1.list ++ [ra] } : RaMgr).writeOne s1 accessName ra.block with
    | error e => rw [h2] at hw; cases hw
    | ok x2 =>
      obtain ⟨info2, s2, m2⟩ := x2
      rw [h2] at hw
      simp only at hw
      generalize hff : ({ m2.createFileRecord with
          nextLoc := if m2.createFileRecord.nextLoc.slt (BitVec.ofNat 64 s1.pos) then BitVec.ofNat 64 s1.pos else m2.createFileRecord.nextLoc
          prevLoc := if (BitVec.ofNat 64 s1.pos).slt m2.createFileRecord.prevLoc then BitVec.ofNat 64 s1.pos else m2.createFileRecord.prevLoc } : RandomAccess) = f at hw
      cases h3 : ({ m2 with file := some f } : RaMgr).writeOne s2 accessName f.block with
      | error e => rw [h3] at hw; cases hw
      | ok x3 =>
        obtain ⟨info3, s3, m3⟩ := x3
        rw [h3] at hw
        simp only at hw
        injection hw with hw
        injection hw with e1 e2
        subst e1
        obtain ⟨o2, om2⟩ := writeOne_done o1.twin h2
        obtain ⟨o3, om3⟩ := writeOne_done o2.twin h3
        cases g1 : t1.good with
        | false =>
          have b2 : ((({ n1 with list := n1.list ++ [ra] } : RaMgr)).limWriteOne t1 accessName ra.block).2.1 = t1 := stay_bad_one g1 _ _ _
          rw [b2] at o2 o3
          have b3 : ((({ m2 with file := some f } : RaMgr)).limWriteOne t1 accessName f.block).2.1 = t1 := stay_bad_one g1 _ _ _
          rw [b3] at o3
          rw [o1.bad g1]
          exact ⟨o3.twin, o1.limit, fun hx => (by rw [g1] at hx; cases hx), fun _ => rfl⟩
        | true =>
          obtain ⟨f1, f2⟩ := o1.fine g1
          rw [f2]
          have hs1 : t1.s = s1 := (o1.twin.same g1).1
          simp only [hs1, hra]
          cases l2 : ({ n1 with list := n1.list ++ [ra] } : RaMgr).limWriteOne t1 accessName ra.block with
          | mk r2 y2 =>
          obtain ⟨t2, n2⟩ := y2
          rw [l2] at o2 om2 o3
          simp only at o2 om2 o3 ⊢
          subst om2
          cases g2 : t2.good with
          | false =>
            have b3 : ((({ n2 with file := some f } : RaMgr)).limWriteOne t2 accessName f.block).2.1 = t2 := stay_bad_one g2 _ _ _
            rw [b3] at o3
            rw [o2.bad g2]
            exact ⟨o3.twin, by rw [o2.limit, o1.limit], fun hx => (by rw [g2] at hx; cases hx), fun _ => by rw [g1, f1]⟩
          | true =>
            obtain ⟨e1, e2⟩ := o2.fine g2
            rw [e2]
            simp only [hff]
            cases l3 : ({ n2 with file := some f } : RaMgr).limWriteOne t2 accessName f.block with
            | mk r3 y3 =>
            obtain ⟨t3, n3⟩ := y3
            rw [l3] at o3
            simp only at o3 ⊢
            cases g3 : t3.good with
            | false =>
              rw [o3.bad g3]
              exact ⟨o3.twin, by rw [o3.limit, o2.limit, o1.limit], fun hx => (by rw [g3] at hx; cases hx), fun _ => by rw [g2, f1]⟩
            | true =>
              rw [(o3.fine g3).2]
              exact ⟨o3.twin, by rw [o3.limit, o2.limit, o1.limit], fun _ => ⟨f1, rfl⟩, fun hx => (by rw [g3] at hx; cases hx)⟩

theorem records_bad {m : RaMgr} {t : LimStream} (hg : t.good = false) :
    (m.limWriteRandomAccessRecords t).2.1 = t ∧ (m.map.map ≠ [] → ∃ e, (m.limWriteRandomAccessRecords t).1 = .error e) ∧ (m.map.map = [] → (m.limWriteRandomAccessRecords t).1 = .ok ()) := by
  unfold RaMgr.limWriteRandomAccessRecords
  by_cases hm : m.map.map = []
  · simp [hm]
  · have hf : m.map.map.isEmpty = false := by simpa using hm
    simp only [hf, Bool.false_eq_true, if_false]
    have h1 : ∃ e m', m.limWriteOne t indexName m.map.block = (.error e, t, m') := by
      unfold RaMgr.limWriteOne
      split
      · exact ⟨_, _, rfl⟩
      · simp [limWriteRecordTo, hg]
    obtain ⟨e, m', h1⟩ := h1
    rw [h1]
    exact ⟨rfl, fun _ => ⟨e, rfl⟩, fun hx => absurd hx hm⟩

/-- Closing. -/
theorem close_twins {lw : LimWriter} {w w' : Writer} {t : LimStream} {s : OStream} {new : List Byte} (h : Twins lw w t s) (hc : w.close = .ok (w', some new)) (hne : t.good = true → lw.ra.map.map ≠ []) :
    lw.close.2.2 = some (new.take t.limit) ∧
    (new.length ≤ t.limit → t.good = true ∧ lw.close.1 = .ok () ∧ lw.close.2.1.stream = none) ∧
    (t.limit < new.length → t.good = true → lw.close.1 = .error .ioFailure) ∧
    (t.good = false → lw.ra.map.map ≠ [] → ∃ e, lw.close.1 = .error e) ∧
    (t.limit < new.length → ∀ e, lw.close.1 = .error e → ∃ t', lw.close.2.1.stream = some t' ∧ t'.good = false) := by
  unfold Writer.close at hc
  rw [h.full] at hc
  simp only at hc
  cases hr : w.ra.writeRandomAccessRecords s with
  | error e => rw [hr] at hc; cases hc
  | ok x =>
    obtain ⟨s', m'⟩ := x
    rw [hr] at hc
    simp only at hc
    injection hc with hc
    injection hc with e1 e2
    injection e2 with e2
    subst e2
    unfold LimWriter.close
    rw [h.lim]
    simp only
    cases hg : t.good with
    | true =>
      have hn := hne hg
      have o := records_done (m := lw.ra) h.twin hn (by rw [h.ra hg]; exact hr)
      cases hl : lw.ra.limWriteRandomAccessRecords t with
      | mk r y =>
      obtain ⟨t', n'⟩ := y
      rw [hl] at o
      simp only at o ⊢
      cases hg' : t'.good with
      | true =>
        obtain ⟨o1, o2⟩ := o.twin.same hg'
        rw [(o.fine hg').2]
        have hle : s'.bytes.length ≤ t.limit := by rw [← o.limit]; exact o2
        refine ⟨?_, fun _ => ⟨trivial, rfl, rfl⟩, fun hlt => absurd hlt (by omega), fun hx => (by cases hx), fun hlt => absurd hlt (by omega)⟩
        simp only
        rw [o1, List.take_of_length_le hle]
      | false =>
        obtain ⟨o1, o2, o3⟩ := o.twin.cut hg'
        rw [o.bad hg', hg]
        rw [o.limit] at o1 o2
        refine ⟨?_, fun hle => absurd hle (by omega), fun _ _ => rfl, fun hx => (by cases hx), fun _ e _ => ⟨t', rfl, hg'⟩⟩
        simp only
        rw [o1]
    | false =>
      obtain ⟨r1, r2, r3⟩ := records_bad (m := lw.ra) hg
      have htw : Twin t s' := by
        by_cases hm : w.ra.map.map = []
        · have : s' = s := by
            unfold RaMgr.writeRandomAccessRecords at hr
            simp [hm] at hr
            exact hr.1.symm
          rw [this]; exact h.twin
        · have o := records_done (m := w.ra) h.twin hm hr
          rw [(records_bad (m := w.ra) hg).1] at o
          exact o.twin
      obtain ⟨o1, o2, o3⟩ := htw.cut hg
      cases hl : lw.ra.limWriteRandomAccessRecords t with
      | mk r y =>
      obtain ⟨t', n'⟩ := y
      rw [hl] at r1 r2 r3
      simp only at r1 r2 r3 ⊢
      subst r1
      cases r with
      | error e =>
        refine ⟨?_, fun hle => absurd hle (by omega), fun _ hx => (by cases hx), fun _ _ => ⟨e, rfl⟩, fun _ _ _ => ⟨t', rfl, hg⟩⟩
        simp only
        rw [o1]
      | ok u =>
        refine ⟨?_, fun hle => absurd hle (by omega), fun _ hx => (by cases hx), fun _ hm => ?_, fun _ e he => (by cases he)⟩
        · simp only
          rw [o1]
        · obtain ⟨e, he⟩ := r2 hm
          cases he

/-- A writer whose stream failed after something was written. -/
def Stuck (w : LimWriter) : Prop := ∃ t, w.stream = some t ∧ t.good = false ∧ w.ra.map.map ≠ []

theorem limWriteJob_error {t : LimStream} (hg : t.good = false) (codec : Codec) (buf : List Byte) (j : Job) : ∃ e, limWriteJob codec buf t j = (.error e, t) := by
  unfold limWriteJob
  split
  · exact ⟨_, rfl⟩
  · split
    · split
      · exact ⟨_, rfl⟩
      · split
        · exact ⟨_, rfl⟩
        · exact ⟨_, by simp only [limWriteRecordTo2, hg, Bool.not_false, if_true]; rfl⟩
    · exact ⟨_, by simp only [limWriteRecordTo, hg, Bool.not_false, if_true]; rfl⟩

theorem records_keep {m : RaMgr} {t : LimStream} : (m.limWriteRandomAccessRecords t).2.2.map = m.map := by
  have one : ∀ (m : RaMgr) t name b, (m.limWriteOne t name b).2.2.map = m.map := by
    intro m t name b
    unfold RaMgr.limWriteOne
    split <;> rfl
  unfold RaMgr.limWriteRandomAccessRecords
  split
  · rfl
  · have h1 := one m t indexName m.map.block
    cases l1 : m.limWriteOne t indexName m.map.block with
    | mk r1 y1 =>
    obtain ⟨t1, m1⟩ := y1
    rw [l1] at h1
    cases r1 with
    | error e => exact h1
    | ok info =>
      simp only at h1 ⊢
      generalize hra : ({ m1.createFromEventMap with
        indexLoc := BitVec.ofNat 64 info.fileStart
        firstLoc := BitVec.ofNat 64 t1.s.pos
        prevLoc := ((m1.list.getLast?).map (·.firstLoc)).getD 0 } : RandomAccess) = ra
      have h2 := one { m1 with list := m1.list ++ [ra] } t1 accessName ra.block
      cases l2 : ({ m1 with list := m1.list ++ [ra] } : RaMgr).limWriteOne t1 accessName ra.block with
      | mk r2 y2 =>
      obtain ⟨t2, m2⟩ := y2
      rw [l2] at h2
      cases r2 with
      | error e => exact h2.trans h1
      | ok info2 =>
        simp only at h2 ⊢
        generalize hff : ({ m2.createFileRecord with
          nextLoc := if m2.createFileRecord.nextLoc.slt (BitVec.ofNat 64 t1.s.pos) then BitVec.ofNat 64 t1.s.pos else m2.createFileRecord.nextLoc
          prevLoc := if (BitVec.ofNat 64 t1.s.pos).slt m2.createFileRecord.prevLoc then BitVec.ofNat 64 t1.s.pos else m2.createFileRecord.prevLoc } : RandomAccess) = f
        have h3 := one { m2 with file := some f } t2 accessName f.block
        cases l3 : ({ m2 with file := some f } : RaMgr).limWriteOne t2 accessName f.block with
        | mk r3 y3 =>
        obtain ⟨t3, m3⟩ := y3
        rw [l3] at h3
        cases r3 with
        | error e => exact h3.trans (h2.trans h1)
        | ok info3 => exact h3.trans (h2.trans h1)

theorem close_keep {w : LimWriter} {e : Err} (h : w.close.1 = .error e) : w.close.2.1.ra.map = w.ra.map := by
  unfold LimWriter.close at h ⊢
  cases hs : w.stream with
  | none =>
    rw [hs] at h
    simp only at h ⊢
    split at h
    · cases h
    · rename_i hn; simp only [hn]; rfl
  | some t =>
    rw [hs] at h
    simp only at h ⊢
    have hk := records_keep (m := w.ra) (t := t)
    cases hl : w.ra.limWriteRandomAccessRecords t with
    | mk r y =>
    obtain ⟨t', m'⟩ := y
    rw [hl] at h hk
    cases r with
    | error e => exact hk
    | ok u => cases h

theorem stuck_step {w : LimWriter} (h : Stuck w) (codec : Codec) (std : Std Pid) (c : LimCall) : (∃ e, (w.step codec std c).1 = .error e) ∧ Stuck (w.step codec std c).2 := by
  obtain ⟨t, h1, h2, h3⟩ := h
  cases c with
  | openNew limit =>
    simp only [LimWriter.step, LimWriter.openNew, h1]
    exact ⟨⟨_, rfl⟩, _, rfl, rfl, h3⟩
  | put compress p =>
    cases p with
    | run hd buf =>
      simp only [LimWriter.step, LimWriter.put, LimWriter.writeRunHeader, h1]
      obtain ⟨e, he⟩ := limWriteJob_error h2 codec buf ⟨runRecordName, 0, [hd.block], compress⟩
      simp only [he]
      exact ⟨⟨_, rfl⟩, _, rfl, h2, h3⟩
    | event hd cols buf =>
      simp only [LimWriter.step, LimWriter.put, LimWriter.writeEvent, h1]
      obtain ⟨e, he⟩ := limWriteJob_error h2 codec buf.1 ⟨headerRecordName, 0, [EventHeader.block [] { hd with cols := colHeads cols }], compress⟩
      simp only [he]
      exact ⟨⟨_, rfl⟩, _, rfl, h2, h3⟩
  | close =>
    simp only [LimWriter.step]
    obtain ⟨r1, r2, r3⟩ := records_bad (m := w.ra) h2
    obtain ⟨e, he⟩ := r2 h3
    have hc : w.close.1 = .error e ∧ w.close.2.1.stream = some t := by
      unfold LimWriter.close
      rw [h1]
      simp only
      cases hl : w.ra.limWriteRandomAccessRecords t with
      | mk r y =>
      obtain ⟨t', m'⟩ := y
      rw [hl] at r1 he
      simp only at r1 he
      subst he; subst r1
      exact ⟨rfl, rfl⟩
    exact ⟨⟨e, hc.1⟩, t, hc.2, h2, by rw [close_keep hc.1]; exact h3⟩

theorem stuck_steps (codec : Codec) (std : Std Pid) (cs : List LimCall) : ∀ {w : LimWriter}, Stuck w → ∀ r ∈ w.steps codec std cs, ∃ e, r = .error e := by
  induction cs with
  | nil => intro w _ r hr; cases hr
  | cons c cs ih =>
    intro w h r hr
    obtain ⟨h1, h2⟩ := stuck_step h codec std c
    simp only [LimWriter.steps, List.mem_cons] at hr
    rcases hr with rfl | hr
    · exact h1
    · exact ih h2 r hr

end Lcio
