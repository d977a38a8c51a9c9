import Verif.Util.SioDump
import Verif.Props.Files
import Verif.Props.Blocks
namespace Util
open Sio Lcio Spec

/-- Reading the data of a record into a buffer with any content. -/
theorem readRecordData_any (pre : List Byte) (r : Rec) (rs : List Rec) (p q : Nat) (hp : p = pre.length) (buf : List Byte) :
    readRecordData (ready (pre ++ fileOf (r :: rs)) q) (r.info p) buf 0 =
      (.ok (), ready (pre ++ fileOf (r :: rs)) (p + r.wire.length), r.data) := by
  have hl := header_length r
  have e : pre ++ fileOf (r :: rs) = (pre ++ r.header) ++ r.data ++ (List.replicate (padding r.data.length) 0 ++ fileOf rs) := by
    simp [fileOf_cons, Rec.wire]
  rw [e]
  unfold readRecordData
  simp only [ready_good, Bool.not_true, Bool.false_eq_true, if_false, Rec.info, seekg_ready]
  have r1 := read_ready (pre ++ r.header) r.data (List.replicate (padding r.data.length) 0 ++ fileOf rs) (p + headerLen r.name) r.data.length (by simp [hl, hp]) rfl
  simp only [r1, ready_good, Bool.not_true, Bool.false_eq_true, if_false, seekg_ready]
  have hres : (overwrite (resize buf (0 + r.data.length)) 0 r.data) = r.data := by
    unfold overwrite
    have : (resize buf (0 + r.data.length)).length = r.data.length := by unfold resize zeros; simp; omega
    rw [List.drop_of_length_le (by omega)]
    simp [resize, zeros]
  rw [hres]
  have : resize r.data (0 + r.data.length) = r.data := by unfold resize; simp [zeros]
  rw [this]

/-- The lines for one record. -/
def shownAs (detailed : Bool) (infos : List BlockInfo) (i : RecordInfo) : List DumpLine :=
  if detailed then [.rule, .recordTitles, .record i, .rule, .blockTitles, .rule] ++ infos.map .block ++ [.blank] else [.record i]

/-- The blocks of the data of a record, after uncompressing, are `bs`. -/
def HasBlocks (codec : Codec) (r : Rec) (bs : List BlockInfo) : Prop :=
  ∃ plain, (if isCompressed r.opts then codec.uncompress r.data r.full else .ok r.data) = .ok plain ∧ readBlockInfos plain = .ok bs

theorem dumpDetails_eq (codec : Codec) (r : Rec) (p : Nat) (bs : List BlockInfo) (h : HasBlocks codec r bs) :
    dumpDetails codec (r.info p) r.data = (shownAs true bs (r.info p), .ok ()) := by
  obtain ⟨plain, h1, h2⟩ := h
  unfold dumpDetails shownAs
  have : spanOf r.data 0 (r.info p).dataLength = .ok r.data := by
    simp [spanOf, Rec.info]
  rw [this]
  have ho : (r.info p).options = r.opts := rfl
  have hf : (r.info p).uncompressedLength = r.full := rfl
  rw [ho, hf]
  cases hc : isCompressed r.opts with
  | true =>
    simp only [hc, if_true] at h1 ⊢
    simp only [h1, h2]
  | false =>
    simp only [hc, Bool.false_eq_true, if_false, Except.ok.injEq] at h1 ⊢
    subst h1
    simp only [h2, if_true]

/-- `HasBlocks` of all records. -/
def AllBlocks (codec : Codec) : List Rec → List (List BlockInfo) → Prop
  | [], [] => True
  | r :: rs, b :: bs => HasBlocks codec r b ∧ AllBlocks codec rs bs
  | _, _ => False

/-- All lines. -/
def shown (detailed : Bool) : List RecordInfo → List (List BlockInfo) → List DumpLine
  | i :: is, b :: bs => shownAs detailed b i ++ shown detailed is bs
  | _, _ => []

theorem dumpLoop_eq (codec : Codec) (count : Nat) (detailed : Bool) (rs : List Rec) (hr : ∀ r ∈ rs, r.Ok) (bss : List (List BlockInfo))
    (hb : detailed = true → AllBlocks codec rs bss) (hlen : bss.length = rs.length)
    (pre : List Byte) (p fuel counter : Nat) (hp : p = pre.length) (infoBuf recBuf : List Byte) (hf : rs.length < fuel)
    (hc : counter ≤ count) (hsmall : count < 2 ^ 32 ∨ (counter + rs.length < 2 ^ 32 ∧ counter + rs.length ≤ count)) :
    ∃ e, dumpLoop codec count detailed fuel counter (ready (pre ++ fileOf rs) p) infoBuf recBuf =
      (shown detailed ((infosFrom p rs).take (count - counter)) bss, e) ∧ dumpEnd e = .ok () := by
  induction rs generalizing pre p fuel counter infoBuf recBuf bss with
  | nil =>
    cases fuel with
    | zero => simp at hf
    | succ fuel =>
      unfold dumpLoop
      by_cases h : counter ≥ count
      · refine ⟨.ok (), ?_, rfl⟩
        rw [if_pos h]; simp [infosFrom, shown]
      · obtain ⟨b, hb⟩ := readRecordInfo_end (pre ++ fileOf []) infoBuf p (by simp [fileOf, hp])
        refine ⟨.error .eof, ?_, rfl⟩
        rw [if_neg h, hb]
        simp [infosFrom, shown]
  | cons r rs ih =>
    cases fuel with
    | zero => simp at hf
    | succ fuel =>
      cases bss with
      | nil => simp at hlen
      | cons b bss =>
      unfold dumpLoop
      by_cases h : counter ≥ count
      · refine ⟨.ok (), ?_, rfl⟩
        have : count - counter = 0 := by omega
        rw [if_pos h, this]; simp [shown]
      · have h1 := readRecordInfo_file infoBuf pre r rs (hr r (by simp)) p hp []
        rw [List.append_nil] at h1
        rw [if_neg h, h1]
        have hlt : (counter + 1) % 2 ^ 32 = counter + 1 := by
          apply Nat.mod_eq_of_lt
          rcases hsmall with h2 | ⟨h2, -⟩
          · omega
          · simp only [List.length_cons] at h2; omega
        have hfile : pre ++ fileOf (r :: rs) = (pre ++ r.wire) ++ fileOf rs := by simp [fileOf_cons]
        have ht : (infosFrom p (r :: rs)).take (count - counter) = r.info p :: (infosFrom (p + r.wire.length) rs).take (count - (counter + 1)) := by
          obtain ⟨k, hk⟩ : ∃ k, count - counter = k + 1 := ⟨count - counter - 1, by omega⟩
          have : count - (counter + 1) = k := by omega
          rw [hk, this]; rfl
        have hi : ∀ rb, _ := fun rb => ih (fun x hx => hr x (by simp [hx])) bss (fun hd => (hb hd).2) (by simpa using hlen) (pre ++ r.wire) (p + r.wire.length) fuel (counter + 1)
          (by simp [hp]) r.header rb (by simpa using hf) (by omega) (by
            rcases hsmall with h2 | h2
            · exact Or.inl h2
            · right; simp only [List.length_cons] at h2; omega)
        cases detailed with
        | false =>
          obtain ⟨e, he, he2⟩ := hi recBuf
          refine ⟨e, ?_, he2⟩
          simp only [Bool.false_eq_true, if_false]
          rw [hlt, show (r.info p).fileEnd = p + r.wire.length from rfl, seekg_ready, hfile, he, ht]
          rfl
        | true =>
          obtain ⟨e, he, he2⟩ := hi r.data
          refine ⟨e, ?_, he2⟩
          have hd : HasBlocks codec r b := (hb rfl).1
          simp only [if_true]
          rw [readRecordData_any pre r rs p _ hp recBuf]
          simp only []
          rw [dumpDetails_eq codec r p b hd]
          simp only []
          rw [hlt, show (r.info p).fileEnd = p + r.wire.length from rfl, seekg_ready, hfile, he, ht]
          rfl

end Util
