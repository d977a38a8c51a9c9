import Verif.Util.XdrLemmas
/-
C60: XDR files.
-/
namespace Props
open Sio Util Spec

/-- One write call for a value. -/
def writeValue (x : LXdr) : XdrValue → Nat × LXdr
  | .long n => x.writeLong n
  | .double d => x.writeDouble d

/-- The results of a sequence of write calls, and the file. -/
def writeValues (x : LXdr) : List XdrValue → List Nat × LXdr
  | [] => ([], x)
  | v :: vs => let (r, x) := writeValue x v; let (rs, x) := writeValues x vs; (r :: rs, x)

/-- The values that a sequence of read calls, with the types of the given values, returns. -/
def readValues (x : LXdr) : List XdrValue → List XdrValue × LXdr
  | [] => ([], x)
  | .long _ :: vs => let (n, x) := x.readLong; let (rs, x) := readValues x vs; (.long n :: rs, x)
  | .double _ :: vs => let (d, x) := x.readDouble; let (rs, x) := readValues x vs; (.double d :: rs, x)

/-- **C60**: integers of 32 bits and doubles that are written to a new file are there in the XDR format, in order, and a reader of the file gets them
unchanged and without an error. What is missing: the results of the write calls (`C60_fails_to_report_success`), strings and arrays
(`C60_fails_for_strings`, `C60_fails_for_arrays`), `long`s of more than 32 bits (`C60_fails_for_wide_longs`). -/
theorem C60_round_trip_partial (vs : List XdrValue) (hv : ∀ v ∈ vs, v.Ok) :
    let file := (writeValues { forWrite := true } vs).2.file
    file = vs.flatMap XdrValue.bytes ∧ (readValues { file } vs).1 = vs ∧ (readValues { file } vs).2.err = 0 ∧ (readValues { file } vs).2.pos = file.length := by
  have hw : ∀ (vs : List XdrValue) (x : LXdr), AtEnd x → (writeValues x vs).2.file = x.file ++ vs.flatMap XdrValue.bytes := by
    intro vs
    induction vs with
    | nil => intro x _; simp [writeValues]
    | cons v vs ih =>
      intro x h
      cases v with
      | long n =>
        simp only [writeValues, writeValue, LXdr.writeLong, checkWriteLong_end x h n]
        rw [ih _ (h.moved _ _), List.flatMap_cons, List.append_assoc]; rfl
      | double d =>
        simp only [writeValues, writeValue, LXdr.writeDouble, checkWriteDouble_end x h d]
        rw [ih _ (h.moved _ _), List.flatMap_cons, List.append_assoc]; rfl
  have hr : ∀ (vs : List XdrValue) (x : LXdr) (pre : List Byte), (∀ v ∈ vs, v.Ok) → At x pre (vs.flatMap XdrValue.bytes) →
      readValues x vs = (vs, { x with pos := (pre ++ vs.flatMap XdrValue.bytes).length }) := by
    intro vs
    induction vs with
    | nil =>
      intro x pre _ h
      have e : (pre ++ ([] : List XdrValue).flatMap XdrValue.bytes).length = x.pos := by rw [List.flatMap_nil, List.append_nil, h.pos]
      rw [e]; rfl
    | cons v vs ih =>
      intro x pre hv h
      rw [List.flatMap_cons] at h
      have hm := h.move
      have := ih _ _ (fun v hv' => hv v (List.mem_cons_of_mem _ hv')) hm
      cases v with
      | long n =>
        have hl := checkReadLong_there x pre _ n (hv (.long n) List.mem_cons_self) h
        simp only [readValues, LXdr.readLong, hl]
        simp only [XdrValue.bytes] at this
        rw [this, List.flatMap_cons, List.append_assoc]; rfl
      | double d =>
        have hl := checkReadDouble_there x pre _ d h
        simp only [readValues, LXdr.readDouble, hl]
        simp only [XdrValue.bytes] at this
        rw [this, List.flatMap_cons, List.append_assoc]; rfl
  intro file
  have hfile : file = vs.flatMap XdrValue.bytes := hw vs { forWrite := true } ⟨rfl, rfl, rfl⟩
  have hread := hr vs { file } [] hv ⟨rfl, rfl, hfile, rfl⟩
  refine ⟨hfile, by rw [hread], by rw [hread], by rw [hread]; rw [hfile]; rfl⟩

/-- A case for `C60_round_trip_partial`. -/
example : let vs : List XdrValue := [.long (-2), .double 0x3ff0000000000000#64, .long 7]
    (∀ v ∈ vs, v.Ok) ∧ (writeValues { forWrite := true } vs).2.file = [255, 255, 255, 254, 0x3f, 0xf0, 0, 0, 0, 0, 0, 0, 0, 0, 0, 7] := by
  refine ⟨?_, by decide +kernel⟩
  intro v hv
  simp only [List.mem_cons, List.not_mem_nil, or_false] at hv
  rcases hv with rfl | rfl | rfl
  · exact ⟨by decide, by decide⟩
  · trivial
  · exact ⟨by decide, by decide⟩

/-- **C60** fails to report success: every write of an integer or of a double to an open file returns `LXDR_WRITEERROR`, although the value was written. -/
theorem C60_fails_to_report_success (vs : List XdrValue) : ∀ r ∈ (writeValues { forWrite := true } vs).1, r = 6 := by
  have hw : ∀ (vs : List XdrValue) (x : LXdr), AtEnd x → ∀ r ∈ (writeValues x vs).1, r = 6 := by
    intro vs
    induction vs with
    | nil => intro x _ r hr; cases hr
    | cons v vs ih =>
      intro x h r hr
      cases v with
      | long n =>
        simp only [writeValues, writeValue, LXdr.writeLong, checkWriteLong_end x h n, List.mem_cons] at hr
        rcases hr with rfl | hr
        · rfl
        · exact ih _ (h.moved _ _) r hr
      | double d =>
        simp only [writeValues, writeValue, LXdr.writeDouble, checkWriteDouble_end x h d, List.mem_cons] at hr
        rcases hr with rfl | hr
        · rfl
        · exact ih _ (h.moved _ _) r hr
  exact hw vs _ ⟨rfl, rfl, rfl⟩

/-- **C60** fails for every string: only its length is written to a new file, and the result is `LXDR_WRITEERROR`. -/
theorem C60_fails_for_strings (s : List Byte) :
    ((LXdr.writeString { forWrite := true } s).2.file = xdrLong s.length) ∧ (LXdr.writeString { forWrite := true } s).1 = 6 := by
  simp only [LXdr.writeString, checkWriteLong_end { forWrite := true } ⟨rfl, rfl, rfl⟩]
  exact ⟨rfl, rfl⟩

/-- **C60** fails for every array of integers or doubles: only its length is written to a new file, and the result is `LXDR_WRITEERROR`. -/
theorem C60_fails_for_arrays (l : List Int) (d : List W64) :
    (LXdr.writeLongArray { forWrite := true } l).2.file = xdrLong l.length ∧ (LXdr.writeLongArray { forWrite := true } l).1 = 6 ∧
    (LXdr.writeDoubleArray { forWrite := true } d).2.file = xdrLong d.length ∧ (LXdr.writeDoubleArray { forWrite := true } d).1 = 6 := by
  simp only [LXdr.writeLongArray, LXdr.writeDoubleArray, checkWriteLong_end { forWrite := true } ⟨rfl, rfl, rfl⟩]
  exact ⟨rfl, rfl, rfl, rfl⟩

/-- **C60** fails for `long`s of more than 32 bits: 2^31 is read back as -2^31. -/
theorem C60_fails_for_wide_longs : (LXdr.readLong { file := (LXdr.writeLong { forWrite := true } (2 ^ 31)).2.file }).1 = -2 ^ 31 := by decide +kernel

/-- **C60**, reading: a string in the XDR format, anywhere in a file, is read with its length and its padding, without an error, and the reader is behind it
then. -/
theorem C60_reads_strings (s pre rest : List Byte) (hs : s.length < 2 ^ 31) (x : LXdr) (h : At x pre (xdrString s ++ rest)) :
    ∃ x', x.readString = (some (s ++ List.replicate (padding s.length) 0), (s.length : Int), x') ∧ x'.err = 0 ∧ At x' (pre ++ xdrString s) rest := by
  have h0 : At x pre (xdrLong s.length ++ ((s ++ List.replicate (padding s.length) 0) ++ rest)) := by
    rw [xdrString] at h; simpa only [List.append_assoc] using h
  have hl := checkReadLong_there x pre _ (s.length : Int) ⟨by omega, by omega⟩ h0
  have h1 := h0.move
  have hlen : (s ++ List.replicate (padding s.length) (0 : Byte)).length = 1 * roundLength (s.length : Int) := by
    rw [roundLength_nat _ hs, List.length_append, List.length_replicate]; omega
  have hf := h1.fread 1 _ (by decide) hlen
  refine ⟨{ x with pos := (pre ++ xdrLong s.length ++ (s ++ List.replicate (padding s.length) 0)).length, err := 0 }, ?_, ?_, ?_⟩
  · unfold LXdr.readString
    simp only [hl, hf, ne_eq, not_true, if_false]
  · rfl
  · have hx : pre ++ xdrString s = pre ++ xdrLong s.length ++ (s ++ List.replicate (padding s.length) 0) := by
      rw [xdrString]; simp only [List.append_assoc]
    rw [hx]
    exact h1.move.err 0

/-- **C60**, reading: an array of integers or of doubles in the XDR format is read unchanged, without an error. -/
theorem C60_reads_arrays (pre rest : List Byte) (x : LXdr) :
    (∀ l : List Int, l.length < 2 ^ 31 → (∀ n ∈ l, IsInt32 n) → At x pre (xdrArray xdrLong l ++ rest) →
      ∃ x', x.readLongArray = .ok (some l, (l.length : Int), x') ∧ x'.err = 0 ∧ At x' (pre ++ xdrArray xdrLong l) rest) ∧
    (∀ l : List W64, l.length < 2 ^ 31 → At x pre (xdrArray xdrDouble l ++ rest) →
      ∃ x', x.readDoubleArray = .ok (some l, (l.length : Int), x') ∧ x'.err = 0 ∧ At x' (pre ++ xdrArray xdrDouble l) rest) := by
  constructor
  · intro l hs hi h
    have h0 : At x pre (xdrLong l.length ++ (l.flatMap xdrLong ++ rest)) := by
      rw [xdrArray] at h; simpa only [List.append_assoc] using h
    have hl := checkReadLong_there x pre _ (l.length : Int) ⟨by omega, by omega⟩ h0
    have h1 := h0.move
    have hlen : (l.flatMap xdrLong).length = 4 * l.length := flatMap_length_const _ 4 xdrLong_length l
    have hf := h1.fread 4 _ (by decide) hlen
    have hneg : ¬ ((l.length : Int) < 0) := by omega
    have hval : (ofImage 4 l.length (l.flatMap xdrLong)).map (fun b => toInt32 (bswap32 b)) = l := by
      rw [ofImage_flatMap 4 xdrLong xdrLong_length, List.map_map]
      refine (List.map_congr_left ?_).trans (List.map_id l)
      intro n hn
      simp only [Function.comp, xdrLong, bswap32_bigEndian]
      exact toInt32_mod n (hi n hn)
    refine ⟨{ x with pos := (pre ++ xdrLong l.length ++ l.flatMap xdrLong).length, err := 0 }, ?_, ?_, ?_⟩
    · unfold LXdr.readLongArray
      simp only [hl, hf, ne_eq, not_true, if_false, hneg, Int.toNat_natCast, hval]
    · rfl
    · have hx : pre ++ xdrArray xdrLong l = pre ++ xdrLong l.length ++ l.flatMap xdrLong := by rw [xdrArray, List.append_assoc]
      rw [hx]
      exact h1.move.err 0
  · intro l hs h
    have h0 : At x pre (xdrLong l.length ++ (l.flatMap xdrDouble ++ rest)) := by
      rw [xdrArray] at h; simpa only [List.append_assoc] using h
    have hl := checkReadLong_there x pre _ (l.length : Int) ⟨by omega, by omega⟩ h0
    have h1 := h0.move
    have hlen : (l.flatMap xdrDouble).length = 8 * l.length := flatMap_length_const _ 8 xdrDouble_length l
    have hf := h1.fread 8 _ (by decide) hlen
    have hneg : ¬ ((l.length : Int) < 0) := by omega
    have hval : (ofImage 8 l.length (l.flatMap xdrDouble)).map (fun b => BitVec.ofNat 64 (ntohd b)) = l := by
      rw [ofImage_flatMap 8 xdrDouble xdrDouble_length, List.map_map]
      refine (List.map_congr_left ?_).trans (List.map_id l)
      intro d _
      simp only [Function.comp, xdrDouble, ntohd_bigEndian]
      rw [Nat.mod_eq_of_lt d.isLt, BitVec.ofNat_toNat, BitVec.setWidth_eq]; rfl
    refine ⟨{ x with pos := (pre ++ xdrLong l.length ++ l.flatMap xdrDouble).length, err := 0 }, ?_, ?_, ?_⟩
    · unfold LXdr.readDoubleArray
      simp only [hl, hf, ne_eq, not_true, if_false, hneg, Int.toNat_natCast, hval]
    · rfl
    · have hx : pre ++ xdrArray xdrDouble l = pre ++ xdrLong l.length ++ l.flatMap xdrDouble := by rw [xdrArray, List.append_assoc]
      rw [hx]
      exact h1.move.err 0

/-- Cases for the theorems about reading. -/
example : At { file := 1 :: xdrString [65, 66, 67, 68, 69] ++ [2], pos := 1 } [1] (xdrString [65, 66, 67, 68, 69] ++ [2]) := ⟨rfl, rfl, rfl, rfl⟩

/-- **C60** fails for arrays of floats: of the array (1, 2, 3) the reader returns the first and the third element, and one that was never set. -/
theorem C60_fails_for_float_arrays :
    (LXdr.readFloatArray { file := xdrArray (fun f : W32 => bigEndian 4 f.toNat) [0x3f800000#32, 0x40000000#32, 0x40400000#32] }).toOption.map (·.1) =
      some (some [some 0x3f800000#32, some 0x40400000#32, none]) := by decide +kernel

/-- **C60** fails to report success after an error: `readLong` at the end of the file fails, and after going back to the start the integer that is there is
read, but the error stays. -/
theorem C60_fails_after_error (n : Int) (h : IsInt32 n) :
    let x := ((LXdr.readLong (LXdr.readLong { file := xdrLong n }).2).2.seek 0).readLong
    x.1 = n ∧ x.2.err = 5 := by
  have h0 : At { file := xdrLong n } [] (xdrLong n ++ []) := ⟨rfl, rfl, by simp, rfl⟩
  have h1 := checkReadLong_there _ _ _ n h h0
  have h2 : LXdr.checkReadLong { file := xdrLong n, pos := ([] ++ xdrLong n).length } = (5, 0, { file := xdrLong n, pos := 4, err := 5 }) := by
    unfold LXdr.checkReadLong LXdr.fread
    simp [xdrLong_length, lxReadError]
  have h3 := checkReadLong_there { file := xdrLong n, err := 5 } [] [] n h ⟨rfl, rfl, by simp, rfl⟩
  have e1 : (LXdr.readLong { file := xdrLong n }).2 = { file := xdrLong n, pos := ([] ++ xdrLong n).length } := by
    rw [LXdr.readLong, h1]
  have e2 : (LXdr.readLong { file := xdrLong n, pos := ([] ++ xdrLong n).length }).2.seek 0 = { file := xdrLong n, err := 5 } := by
    rw [LXdr.readLong, h2]; rfl
  intro x
  have hx : x = LXdr.readLong { file := xdrLong n, err := 5 } := by
    show ((LXdr.readLong (LXdr.readLong { file := xdrLong n }).2).2.seek 0).readLong = _
    rw [e1, e2]
  rw [hx, LXdr.readLong, h3]
  exact ⟨rfl, rfl⟩

end Props
