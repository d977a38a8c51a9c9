import Verif.Lcio.DamageLemmas
import Verif.Props.Files
/-
Lemmas for C74 and C75: what reading records from arbitrary files does.
-/
namespace Lcio
open Sio Spec

theorem read_bytes (s : IStream) (n : Nat) : (s.read n).2.bytes = s.bytes := by
  unfold IStream.read; split <;> rfl

theorem seekg_bytes (s : IStream) (p : Nat) : (s.seekg p).bytes = s.bytes := by
  unfold IStream.seekg; split <;> rfl

theorem good_eq {s : IStream} (h : s.good = true) (ho : s.isOpen = true) : s = { bytes := s.bytes, pos := s.pos } := by
  unfold IStream.good at h
  cases s
  simp at h ho ⊢
  exact ⟨h.1, h.2, ho⟩

theorem tame_headerRest : Tame recordHeaderRest := by unfold recordHeaderRest; tame

theorem tame_headerStart : Tame recordHeaderStart := by unfold recordHeaderStart; tame

theorem bind_assoc' {α β γ : Type} (p : RProg α) (f : α → RProg β) (g : β → RProg γ) : (p.bind f).bind g = p.bind fun a => (f a).bind g := by
  induction p with
  | ret a => rfl
  | throw e => rfl
  | arr s c k ih => simp only [RProg.bind, ih]
  | ptr k ih => simp only [RProg.bind, ih]
  | tag o k ih => simp only [RProg.bind, ih]
  | new k ih => simp only [RProg.bind, ih]

/-- The rest of a record header. -/
theorem headerRest_ok (buf : List Byte) {opts dl ul name d} (h : recordHeaderRest.run { buf := buf, cur := 8 } = .ok ((opts, dl, ul, name), d)) :
    dl = wordAt buf 12 ∧ dl < 2 ^ 32 ∧ ul < 2 ^ 32 := by
  have e : recordHeaderRest = r32.bind fun o => r32.bind fun dl => r32.bind fun ul => r32.bind fun nl =>
      if nl.toNat > 64 then .throw .noMarker else (r8s nl.toNat).bind fun name => .ret (o, dl.toNat, ul.toNat, name) := rfl
  rw [e] at h
  obtain ⟨a1, h⟩ := run_r32_ok _ _ _ h
  obtain ⟨a2, h⟩ := run_r32_ok _ _ _ h
  obtain ⟨a3, h⟩ := run_r32_ok _ _ _ h
  obtain ⟨a4, h⟩ := run_r32_ok _ _ _ h
  simp only at h a1 a2 a3 a4
  have w := wordAt_lt buf (8 + 4) a2
  split at h
  · cases h
  · have key : ∀ (p : RProg (List Byte)) (x : W32 × Nat × Nat) (d : RDev) (r), (p.bind fun name => RProg.ret (x.1, x.2.1, x.2.2, name)).run d = .ok r → (r.1.1, r.1.2.1, r.1.2.2.1) = x := by
      intro p x
      have hg : Gives (fun r : W32 × Nat × Nat × List Byte => (r.1, r.2.1, r.2.2.1) = x) (p.bind fun name => RProg.ret (x.1, x.2.1, x.2.2, name)) :=
        gives_any (p := p) fun name => rfl
      intro d r hr
      exact gives_run hg hr
    have := key _ (_, _, _) _ _ h
    simp only [Prod.mk.injEq] at this
    obtain ⟨-, h2, h3⟩ := this
    have h2 : dl = (BitVec.ofNat 32 (wordAt buf 12)).toNat := h2
    have h3 : ul = (BitVec.ofNat 32 (wordAt buf 16)).toNat := h3
    rw [BitVec.toNat_ofNat, Nat.mod_eq_of_lt w] at h2
    exact ⟨h2, h2 ▸ w, h3 ▸ BitVec.isLt _⟩

/-- Reading a record header from any file. -/
theorem readRecordInfo_any (s : IStream) (buf : List Byte) :
    (readRecordInfo s buf).2.1.bytes = s.bytes ∧ ((readRecordInfo s buf).1 = .error .ub → WrongHeader s.bytes) ∧ (readRecordInfo s buf).1 ≠ .error .diverge := by
  refine ⟨?_, ?_, ?_⟩
  · unfold readRecordInfo
    simp only
    repeat' split
    all_goals first | rfl | simp only [read_bytes]
  · intro h
    by_cases ho : s.isOpen = true
    · by_cases hg : s.good = true
      · rw [good_eq hg ho, Props.C20_overflow_iff] at h
        exact ⟨s.pos, h⟩
      · unfold readRecordInfo at h
        simp [ho, hg] at h
    · unfold readRecordInfo at h
      simp [ho] at h
  · intro h
    unfold readRecordInfo at h
    simp only at h
    repeat' split at h
    all_goals first | (cases h; done) | skip
    · rename_i hr; cases h; exact (tame_run _ tame_headerStart _ _ hr).2 rfl
    · rename_i hr; cases h; exact (tame_run _ tame_headerRest _ _ hr).2 rfl

/-- What is known about a header that was read from any file. -/
structure InfoOk (s : IStream) (buf : List Byte) (info : RecordInfo) (s' : IStream) : Prop where
  isOpen : s.isOpen = true
  good : s.good = true
  start : info.fileStart = s.pos
  inside : s.pos + 8 ≤ s.bytes.length
  marker : wordAt s.bytes (s.pos + 4) = 0xabadcafe
  bytes : s'.bytes = s.bytes
  opened : s'.isOpen = true
  data : info.dataLength < 2 ^ 32
  full : info.uncompressedLength < 2 ^ 32
  moves : s'.fail = true ∨ s.pos < info.fileEnd ∨ ZeroRecord s.bytes

theorem wordAt_overwrite (l b : List Byte) (hb : 8 ≤ b.length) : wordAt (overwrite l 8 b) 12 = wordAt b 4 := by
  have h1 : (resize l 8).length = 8 := resize_length _ _
  unfold overwrite wordAt
  rw [List.append_assoc, List.drop_append, List.drop_of_length_le (by omega), h1, List.nil_append, List.drop_append_of_le_length (by omega),
    List.take_append_of_le_length (by simp; omega)]

theorem readRecordInfo_ok (s : IStream) (buf : List Byte) {info s' buf'} (h : readRecordInfo s buf = (.ok info, s', buf')) : InfoOk s buf info s' := by
  unfold readRecordInfo at h
  rcases Bool.eq_false_or_eq_true s.isOpen with ho | ho
  case inr => simp [ho] at h
  rcases Bool.eq_false_or_eq_true s.good with hg | hg
  case inr => simp [ho, hg] at h
  have hres : (resize buf maxRecordInfoLen).length = 116 := resize_length _ _
  obtain ⟨B, p, e, f, o⟩ := s
  simp only [IStream.good, Bool.and_eq_true, Bool.not_eq_true'] at hg ho
  obtain ⟨rfl, rfl⟩ := hg
  subst ho
  simp only [Bool.not_true, Bool.false_eq_true, if_false, IStream.good, Bool.not_false, Bool.and_self, IStream.read] at h
  by_cases h8 : ¬ p + 8 ≤ B.length
  · have hlt : ((B.drop p).take 8).length < 8 := by simp; omega
    simp only [hlt, decide_true, if_true] at h
    cases h
  · have h8 : p + 8 ≤ B.length := by omega
    have hg : ((B.drop p).take 8).length = 8 := by simp; omega
    have hlt : ¬ (((B.drop p).take 8).length < 8) := by omega
    simp only [hlt, decide_false, Bool.false_eq_true, if_false, Bool.not_false, Bool.not_true] at h
    have hlen : (overwrite (resize buf maxRecordInfoLen) 0 ((B.drop p).take 8)).length = 116 := by
      rw [overwrite_zero]; simp only [List.length_append, List.length_drop, hres, hg]
    obtain ⟨d', hs⟩ := recordHeaderStart_ok (overwrite (resize buf maxRecordInfoLen) 0 ((B.drop p).take 8)) (by omega)
    rw [hs, Props.overwrite_start _ _ _ (by omega), Props.overwrite_start _ _ _ (by omega)] at h
    have w0 : wordAt ((B.drop p).take 8) 0 = wordAt B p := by
      unfold wordAt; rw [List.drop_zero, List.take_take]; rfl
    have w4 : wordAt ((B.drop p).take 8) 4 = wordAt B (p + 4) := by
      unfold wordAt; rw [List.drop_take, List.take_take, List.drop_drop]; rfl
    have wl := wordAt_lt B p (by omega)
    simp only [w0, w4, hg] at h
    by_cases hm : wordAt B (p + 4) ≠ recordMarker
    · rw [if_pos hm] at h; cases h
    · rw [if_neg hm] at h
      have hm' : wordAt B (p + 4) = 0xabadcafe := Decidable.not_not.1 hm
      generalize hgot : (B.drop (p + 8)).take ((wordAt B p + 2 ^ 32 - 8) % 2 ^ 32) = got at h
      generalize hb0 : overwrite (resize buf maxRecordInfoLen) 0 ((B.drop p).take 8) = b0 at h hlen
      split at h
      · cases h
      · split at h
        · cases h
        · rename_i opts dl ul name d hr
          obtain ⟨h1, h2, h3⟩ := headerRest_ok _ hr
          cases h
          refine ⟨rfl, rfl, rfl, h8, hm', rfl, rfl, h2, h3, ?_⟩
          simp only
          by_cases hshort : got.length < (wordAt B p + 2 ^ 32 - 8) % 2 ^ 32
          · exact Or.inl (decide_eq_true hshort)
          · refine Or.inr ?_
            by_cases h16 : wordAt B p < 16
            · exact Or.inr ⟨p, by show p < B.length; omega, hm', Or.inl h16⟩
            · have hn : (wordAt B p + 2 ^ 32 - 8) % 2 ^ 32 = wordAt B p - 8 := by omega
              have wl' : 16 ≤ wordAt B p := by omega
              generalize hw : wordAt B p = w at *
              rw [hn] at hgot hshort
              have hdl : dl = wordAt B (p + 12) := by
                rw [h1, wordAt_overwrite _ _ (by omega), ← hgot]
                unfold wordAt
                rw [List.drop_take, List.take_take, List.drop_drop, Nat.min_eq_left (by omega)]
              by_cases hz : p < p + (if isCompressed opts = true then ((dl + w) % 2 ^ 32 + padBytes dl) % 2 ^ 32 else (dl + w) % 2 ^ 32)
              · exact Or.inl hz
              · refine Or.inr ⟨p, by show p < B.length; omega, hm', Or.inr ?_⟩
                simp only [hw]
                have hp4 : padBytes dl = (4 - dl % 4) % 4 := by rw [padBytes_eq]; rfl
                rw [hp4] at hz
                rw [← hdl]
                split at hz
                · right; omega
                · left; omega

theorem readRecordData_any (s : IStream) (info : RecordInfo) (buf : List Byte) (shift : Nat) :
    (readRecordData s info buf shift).2.1.bytes = s.bytes ∧ (readRecordData s info buf shift).1 ≠ .error .ub ∧ (readRecordData s info buf shift).1 ≠ .error .diverge := by
  unfold readRecordData
  simp only
  repeat' split
  all_goals simp [read_bytes, seekg_bytes]

/-- When the data of a record have been read they are all there, and the stream is where the record ends. -/
theorem readRecordData_ok (s : IStream) (info : RecordInfo) (buf : List Byte) {s' buf'}
    (h : readRecordData s info buf info.headerLength = (.ok (), s', buf')) :
    s' = { bytes := s.bytes, pos := info.fileEnd } ∧
    (s.bytes.drop (info.fileStart + info.headerLength)).take info.dataLength = (buf'.drop info.headerLength).take info.dataLength ∧
    ((buf'.drop info.headerLength).take info.dataLength).length = info.dataLength ∧
    spanOf buf' info.headerLength info.dataLength = .ok ((buf'.drop info.headerLength).take info.dataLength) := by
  unfold readRecordData at h
  rcases Bool.eq_false_or_eq_true s.isOpen with ho | ho
  case inr => simp [ho] at h
  rcases Bool.eq_false_or_eq_true s.good with hg | hg
  case inr => simp [ho, hg] at h
  rw [good_eq hg ho] at h
  simp only [IStream.good, Bool.not_true, Bool.false_eq_true, if_false, Bool.not_false, Bool.and_self, IStream.seekg, IStream.read] at h
  generalize hgot : (s.bytes.drop (info.fileStart + info.headerLength)).take info.dataLength = got at h
  by_cases hs : got.length < info.dataLength
  · simp [hs] at h
  · simp only [hs, decide_false, Bool.not_false, Bool.and_self, Bool.not_true, Bool.false_eq_true, if_false] at h
    cases h
    have hgl : got.length = info.dataLength := by
      have : got.length ≤ info.dataLength := by rw [← hgot, List.length_take]; omega
      omega
    have hov : resize (overwrite (resize buf (info.headerLength + info.dataLength)) info.headerLength got) (info.headerLength + info.dataLength) =
        resize (resize buf (info.headerLength + info.dataLength)) info.headerLength ++ got := by
      generalize hb : resize buf (info.headerLength + info.dataLength) = b
      have hbl : b.length = info.headerLength + info.dataLength := by rw [← hb]; exact resize_length _ _
      have hr := resize_length b info.headerLength
      unfold overwrite
      have hd : b.drop (info.headerLength + got.length) = [] := List.drop_of_length_le (by omega)
      rw [hd, List.append_nil]
      have : (resize b info.headerLength ++ got).length = info.headerLength + info.dataLength := by simp [hr, hgl]
      rw [← this]
      generalize resize b info.headerLength ++ got = l
      unfold resize zeros
      simp
    rw [hov]
    have hr := resize_length (resize buf (info.headerLength + info.dataLength)) info.headerLength
    have hd : (resize (resize buf (info.headerLength + info.dataLength)) info.headerLength ++ got).drop info.headerLength = got := by
      rw [List.drop_append, List.drop_of_length_le (by omega), hr]; simp
    rw [hd, List.take_of_length_le (by omega)]
    refine ⟨rfl, rfl, hgl, ?_⟩
    unfold spanOf
    rw [if_neg (by simp [hr, hgl]), hd, List.take_of_length_le (by omega)]

theorem infoOk_stored {s : IStream} {buf : List Byte} {info : RecordInfo} {s' buf'} (h : readRecordInfo s buf = (.ok info, s', buf'))
    {data : List Byte} (hd : (s.bytes.drop (info.fileStart + info.headerLength)).take info.dataLength = data) (hl : data.length = info.dataLength) :
    HeldAt s.bytes s.pos info data := by
  have hi := readRecordInfo_ok s buf h
  refine ⟨⟨buf, ?_⟩, ?_, hl⟩
  · rw [good_eq hi.good hi.isOpen] at h
    rw [h]
  · rw [← hd, hi.start]

/-- Reading a record from any file. -/
theorem readRecord_any (s : IStream) (buf : List Byte) :
    (readRecord s buf).2.1.bytes = s.bytes ∧ ((readRecord s buf).1 = .error .ub → WrongHeader s.bytes) ∧ (readRecord s buf).1 ≠ .error .diverge := by
  have hi := readRecordInfo_any s buf
  unfold readRecord
  split
  · rename_i e s1 b1 h1
    rw [h1] at hi
    exact ⟨hi.1, fun h => hi.2.1 (by simpa using h), fun h => hi.2.2 (by simpa using h)⟩
  · rename_i info s1 b1 h1
    rw [h1] at hi
    have hd := readRecordData_any s1 info b1 info.headerLength
    split
    · rename_i e s2 b2 h2
      rw [h2] at hd
      exact ⟨hd.1.trans hi.1, fun h => absurd (by simpa using h) hd.2.1, fun h => hd.2.2 (by simpa using h)⟩
    · rename_i s2 b2 h2
      rw [h2] at hd
      exact ⟨hd.1.trans hi.1, (fun h => nomatch h), fun h => nomatch h⟩

theorem readRecord_ok (s : IStream) (buf : List Byte) {info s' buf'} (h : readRecord s buf = (.ok info, s', buf')) :
    s' = { bytes := s.bytes, pos := info.fileEnd } ∧ info.dataLength < 2 ^ 32 ∧ info.uncompressedLength < 2 ^ 32 ∧ s.pos + 8 ≤ s.bytes.length ∧
    (s.pos < info.fileEnd ∨ ZeroRecord s.bytes) ∧
    ∃ data, spanOf buf' info.headerLength info.dataLength = .ok data ∧ HeldAt s.bytes s.pos info data := by
  unfold readRecord at h
  split at h
  · cases h
  · rename_i i s1 b1 h1
    have hi := readRecordInfo_ok s buf h1
    split at h
    · cases h
    · rename_i s2 b2 h2
      cases h
      obtain ⟨g1, g2, g3, g4⟩ := readRecordData_ok s1 info b1 h2
      rw [hi.bytes] at g1 g2
      have hgood : s1.fail = false := by
        cases hf : s1.fail with
        | false => rfl
        | true =>
          unfold readRecordData at h2
          simp [hi.opened, IStream.good, hf] at h2
      refine ⟨g1, hi.data, hi.full, hi.inside, ?_, _, g4, infoOk_stored h1 g2 g3⟩
      rcases hi.moves with h | h
      · rw [hgood] at h; cases h
      · exact h

/-- Reading records from any file: an error is the reader's, or comes from the code that processes the records. -/
theorem readRecords_any {σ : Type} (valid : σ → RecordInfo → σ × Bool) (func : σ → RecordInfo → List Byte → σ × Except Err Bool) (I : σ → Prop) (U D : Prop) (file : List Byte)
    (hv : ∀ st i, I st → I (valid st i).1)
    (hf : ∀ st i data p, I st → HeldAt file p i data → i.dataLength < 2 ^ 32 → i.uncompressedLength < 2 ^ 32 →
      I (func st i data).1 ∧ ((func st i data).2 = .error .ub → U) ∧ ((func st i data).2 = .error .diverge → D)) :
    ∀ fuel st (s : IStream) buf, I st → s.bytes = file →
      (readRecords valid func fuel st s buf).2.2.1.bytes = file ∧ I (readRecords valid func fuel st s buf).1 ∧
      ((readRecords valid func fuel st s buf).2.1 = .error .ub → WrongHeader file ∨ U) ∧
      (s.bytes.length + 1 ≤ s.pos + fuel → 0 < fuel → (readRecords valid func fuel st s buf).2.1 = .error .diverge → ZeroRecord file ∨ D)
  | 0, st, s, buf, hI, hs => ⟨hs, hI, (fun h => nomatch h), fun h1 h2 => absurd h2 (by omega)⟩
  | fuel+1, st, s, buf, hI, hs => by
    have hi := readRecordInfo_any s buf
    unfold readRecords
    split
    · rename_i e s1 b1 h1
      rw [h1] at hi
      exact ⟨hi.1.trans hs, hI, fun h => Or.inl (hs ▸ hi.2.1 (by simpa using h)), fun _ _ h => absurd (by simpa using h) hi.2.2⟩
    · rename_i info s1 b1 h1
      have hok := readRecordInfo_ok s buf h1
      have hv' := hv st info hI
      split
      · rename_i st1 hval
        rw [hval] at hv'
        have hd := readRecordData_any s1 info b1 info.headerLength
        split
        · rename_i e s2 b2 h2
          rw [h2] at hd
          exact ⟨hd.1.trans (hok.bytes.trans hs), hv', fun h => absurd (by simpa using h) hd.2.1, fun _ _ h => absurd (by simpa using h) hd.2.2⟩
        · rename_i s2 b2 h2
          obtain ⟨g1, g2, g3, g4⟩ := readRecordData_ok s1 info b1 h2
          rw [hok.bytes] at g1 g2
          rw [g4]
          simp only
          have hst := infoOk_stored h1 g2 g3
          rw [hs] at hst
          obtain ⟨f1, f2, f3⟩ := hf st1 info _ _ hv' hst hok.data hok.full
          have hb2 : s2.bytes = file := by rw [g1]; exact hs
          split
          · rename_i st2 e hfun
            rw [hfun] at f1 f2 f3
            exact ⟨hb2, f1, fun h => Or.inr (f2 (by simpa using h)), fun _ _ h => Or.inr (f3 (by simpa using h))⟩
          · rename_i st2 hfun
            rw [hfun] at f1 f2 f3
            obtain ⟨k1, k2, k3, k4⟩ := readRecords_any valid func I U D file hv hf fuel st2 s2 b2 f1 hb2
            refine ⟨k1, k2, k3, fun q1 q2 h => ?_⟩
            have hgood : s1.fail = false := by
              cases hf : s1.fail with
              | false => rfl
              | true =>
                unfold readRecordData at h2
                simp [hok.opened, IStream.good, hf] at h2
            rcases hok.moves with hm | hm | hm
            · rw [hgood] at hm; cases hm
            · have hin := hok.inside
              have hp2 : s2.pos = info.fileEnd := by rw [g1]
              have hl : s2.bytes.length = s.bytes.length := by rw [hb2, hs]
              exact k4 (by rw [hl, hp2]; omega) (by omega) h
            · exact Or.inl (hs ▸ hm)
          · rename_i st2 hfun
            rw [hfun] at f1
            exact ⟨hb2, f1, (fun h => nomatch h), fun _ _ h => nomatch h⟩
      · rename_i st1 hval
        rw [hval] at hv'
        have hb2 : (s1.seekg info.fileEnd).bytes = file := by rw [seekg_bytes, hok.bytes, hs]
        obtain ⟨k1, k2, k3, k4⟩ := readRecords_any valid func I U D file hv hf fuel st1 (s1.seekg info.fileEnd) b1 hv' hb2
        refine ⟨k1, k2, k3, fun q1 q2 h => ?_⟩
        have hin := hok.inside
        cases hfail : s1.fail with
        | true =>
          exfalso
          have hfs : (s1.seekg info.fileEnd).good = false := by unfold IStream.seekg IStream.good; simp [hfail]
          have hos : (s1.seekg info.fileEnd).isOpen = true := by unfold IStream.seekg; simp [hfail, hok.opened]
          cases fuel with
          | zero => omega
          | succ fuel =>
            unfold readRecords readRecordInfo at h
            simp [hfs, hos] at h
        | false =>
          rcases hok.moves with hm | hm | hm
          · rw [hfail] at hm; cases hm
          · have hp2 : (s1.seekg info.fileEnd).pos = info.fileEnd := by unfold IStream.seekg; simp [hfail]
            have hl : (s1.seekg info.fileEnd).bytes.length = s.bytes.length := by rw [hb2, hs]
            exact k4 (by rw [hl, hp2]; omega) (by omega) h
          · exact Or.inl (hs ▸ hm)

/-- Skipping records in any file. -/
theorem skipRecordsLoop_any {σ : Type} (pred : σ → RecordInfo → σ × Bool) (file : List Byte) :
    ∀ fuel st (s : IStream) buf, s.bytes = file →
      (skipRecordsLoop pred fuel st s buf).2.2.bytes = file ∧
      ((skipRecordsLoop pred fuel st s buf).2.1 = .error .ub → WrongHeader file) ∧
      (s.bytes.length + 1 ≤ s.pos + fuel → 0 < fuel → (skipRecordsLoop pred fuel st s buf).2.1 = .error .diverge → ZeroRecord file) ∧
      ((skipRecordsLoop pred fuel st s buf).2.1 = .ok () → s.pos < (skipRecordsLoop pred fuel st s buf).2.2.pos ∨ ZeroRecord file)
  | 0, st, s, buf, hs => ⟨hs, (fun h => nomatch h), (fun h1 h2 => absurd h2 (by omega)), fun h => nomatch h⟩
  | fuel+1, st, s, buf, hs => by
    have hi := readRecordInfo_any s buf
    unfold skipRecordsLoop
    split
    · rename_i e s1 b1 h1
      rw [h1] at hi
      exact ⟨hi.1.trans hs, fun h => hs ▸ hi.2.1 (by simpa using h), (fun _ _ h => absurd (by simpa using h) hi.2.2), fun h => nomatch h⟩
    · rename_i info s1 b1 h1
      have hok := readRecordInfo_ok s buf h1
      have hb2 : (s1.seekg info.fileEnd).bytes = file := by rw [seekg_bytes, hok.bytes, hs]
      simp only
      split
      · exact ⟨hb2, (fun h => nomatch h), (fun _ _ h => nomatch h), fun h => nomatch h⟩
      · rename_i hgood
        have hfail : s1.fail = false := by
          cases hf : s1.fail with
          | false => rfl
          | true => unfold IStream.seekg IStream.good at hgood; simp [hf] at hgood
        have hp2 : (s1.seekg info.fileEnd).pos = info.fileEnd := by unfold IStream.seekg; simp [hfail]
        have hl : (s1.seekg info.fileEnd).bytes.length = s.bytes.length := by rw [hb2, hs]
        have hin := hok.inside
        have hmv : s.pos < info.fileEnd ∨ ZeroRecord file := by
          rcases hok.moves with hm | hm | hm
          · rw [hfail] at hm; cases hm
          · exact Or.inl hm
          · exact Or.inr (hs ▸ hm)
        split
        · rename_i st1 hp
          obtain ⟨k1, k2, k3, k4⟩ := skipRecordsLoop_any pred file fuel st1 (s1.seekg info.fileEnd) b1 hb2
          refine ⟨k1, k2, fun q1 q2 h => ?_, fun h => ?_⟩
          · rcases hmv with hm | hm
            · exact k3 (by rw [hl, hp2]; omega) (by omega) h
            · exact hm
          · rcases hmv with hm | hm
            · rcases k4 h with k | k
              · rw [hp2] at k; exact Or.inl (by omega)
              · exact Or.inr k
            · exact Or.inr hm
        · exact ⟨hb2, (fun h => nomatch h), (fun _ _ h => nomatch h), fun _ => by rw [hp2]; exact hmv⟩

end Lcio
