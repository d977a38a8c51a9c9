import Verif.Util.Xdr
import Verif.Spec.Xdr
import Verif.Sio.BasicLemmas
/-
Lemmas about the XDR files.
-/
namespace Util
open Sio Spec

theorem bigEndian_reverse (n v : Nat) : bigEndian n v = (leBytes n v).reverse := by
  apply List.ext_getElem?
  intro i
  by_cases h : i < n
  · rw [bigEndian_getElem? _ _ _ h, List.getElem?_reverse (by rw [leBytes_length]; exact h), leBytes_length]
  · rw [List.getElem?_eq_none (by rw [bigEndian_length]; omega), List.getElem?_eq_none (by rw [List.length_reverse, leBytes_length]; omega)]

theorem leBytes_ofLE (bs : List Byte) : leBytes bs.length (ofLE bs) = bs := by
  induction bs with
  | nil => rfl
  | cons b bs ih =>
    rw [List.length_cons, leBytes, ofLE]
    have hb := b.toNat_lt
    have h1 : (b.toNat + 256 * ofLE bs) % 256 = b.toNat := by omega
    have h2 : (b.toNat + 256 * ofLE bs) / 256 = ofLE bs := by omega
    rw [h1, h2, ih, UInt8.ofNat_toNat]

theorem leBytes_take (n k v : Nat) (h : k ≤ n) : (leBytes n v).take k = leBytes k v := by
  induction k generalizing n v with
  | zero => rfl
  | succ k ih =>
    match n, h with
    | n + 1, h => rw [leBytes, leBytes, List.take_succ_cons, ih n _ (by omega)]

theorem ofLE_lt (bs : List Byte) : ofLE bs < 256 ^ bs.length := by
  induction bs with
  | nil => decide
  | cons b bs ih =>
    rw [ofLE, List.length_cons, Nat.pow_succ]
    have := b.toNat_lt
    have h2 : 256 * ofLE bs + 256 ≤ 256 * 256 ^ bs.length := by
      rw [← Nat.mul_succ]; exact Nat.mul_le_mul_left _ ih
    omega

theorem leBytes_bswap32 (w : Nat) : leBytes 4 (bswap32 w) = bigEndian 4 w := by
  rw [bigEndian_reverse, bswap32]
  have := leBytes_ofLE (leBytes 4 w).reverse
  rw [List.length_reverse, leBytes_length] at this
  exact this

theorem bswap32_bigEndian (w : Nat) : bswap32 (ofLE (bigEndian 4 w)) = w % 2 ^ 32 := by
  have h := leBytes_ofLE (bigEndian 4 w)
  rw [bigEndian_length] at h
  unfold bswap32
  rw [h, bigEndian_reverse, List.reverse_reverse, ofLE_leBytes]

theorem bswap32_lt (w : Nat) : bswap32 w < 2 ^ 32 := by
  have := ofLE_lt (leBytes 4 w).reverse
  rw [List.length_reverse, leBytes_length] at this
  exact this

theorem ntohdBytes_eq (b : List Byte) (h : b.length = 8) : ntohdBytes b = b.reverse := by
  match b, h with
  | [_, _, _, _, _, _, _, _], _ => rfl

theorem leBytes_ntohd (d : Nat) : leBytes 8 (ntohd d) = bigEndian 8 d := by
  rw [bigEndian_reverse, ntohd, ntohdBytes_eq _ (leBytes_length 8 d)]
  have := leBytes_ofLE (leBytes 8 d).reverse
  rw [List.length_reverse, leBytes_length] at this
  exact this

theorem ntohd_bigEndian (d : Nat) : ntohd (ofLE (bigEndian 8 d)) = d % 2 ^ 64 := by
  have h := leBytes_ofLE (bigEndian 8 d)
  rw [bigEndian_length] at h
  unfold ntohd
  rw [h, ntohdBytes_eq _ (bigEndian_length 8 d), bigEndian_reverse, List.reverse_reverse, ofLE_leBytes]

theorem toInt32_mod (n : Int) (h : IsInt32 n) : toInt32 (((n % 2 ^ 32).toNat % 2 ^ 32 : Nat) : Int) = n := by
  obtain ⟨h1, h2⟩ := h
  have e : (((n % 2 ^ 32).toNat % 2 ^ 32 : Nat) : Int) = n % 2 ^ 32 := by omega
  rw [toInt32, e, BitVec.toInt_ofInt]
  rw [Int.bmod_def]
  split <;> omega

theorem toNat_ofInt32 (n : Int) : (BitVec.ofInt 32 n).toNat = (n % 2 ^ 32).toNat := by
  rw [BitVec.toNat_ofInt]; rfl

theorem xdrLong_length (n : Int) : (xdrLong n).length = 4 := bigEndian_length _ _
theorem xdrDouble_length (d : W64) : (xdrDouble d).length = 8 := bigEndian_length _ _

/-- Reading bytes that are there. -/
theorem fread_there (x : LXdr) (pre bs post : List Byte) (size count : Nat) (hs : 0 < size) (hf : x.file = pre ++ bs ++ post) (hp : x.pos = pre.length)
    (hb : bs.length = size * count) : x.fread size count = (bs, count, { x with pos := (pre ++ bs).length }) := by
  unfold LXdr.fread
  have h : (x.file.drop x.pos).take (size * count) = bs := by
    rw [hf, hp, List.append_assoc, List.drop_left, ← hb, List.take_left]
  simp only [h]
  rw [hb, Nat.mul_div_cancel_left _ hs, hp, List.length_append, hb]

/-- A file open for reading whose position is after `pre`. -/
structure At (x : LXdr) (pre rest : List Byte) : Prop where
  reads : x.forWrite = false
  opened : x.isOpen = true
  file : x.file = pre ++ rest
  pos : x.pos = pre.length

theorem At.move {x : LXdr} {pre bs rest : List Byte} (h : At x pre (bs ++ rest)) : At { x with pos := (pre ++ bs).length } (pre ++ bs) rest :=
  ⟨h.reads, h.opened, by rw [h.file, List.append_assoc], rfl⟩

theorem At.err {x : LXdr} {pre rest : List Byte} (e : Nat) (h : At x pre rest) : At { x with err := e } pre rest := ⟨h.reads, h.opened, h.file, h.pos⟩

theorem At.fread {x : LXdr} {pre bs rest : List Byte} (h : At x pre (bs ++ rest)) (size count : Nat) (hs : 0 < size) (hb : bs.length = size * count) :
    x.fread size count = (bs, count, { x with pos := (pre ++ bs).length }) :=
  fread_there x pre bs rest size count hs (by rw [h.file, List.append_assoc]) h.pos hb

/-- Reading an integer that is there. -/
theorem checkReadLong_there (x : LXdr) (pre rest : List Byte) (n : Int) (hn : IsInt32 n) (h : At x pre (xdrLong n ++ rest)) :
    x.checkReadLong = (0, n, { x with pos := (pre ++ xdrLong n).length }) := by
  unfold LXdr.checkReadLong
  rw [h.reads, h.opened, h.fread 4 1 (by decide) (xdrLong_length n)]
  simp only [Bool.false_eq_true, if_false, Bool.not_true, ne_eq, not_true]
  rw [xdrLong, bswap32_bigEndian, toInt32_mod n hn, h.reads, h.opened]

theorem checkReadDouble_there (x : LXdr) (pre rest : List Byte) (d : W64) (h : At x pre (xdrDouble d ++ rest)) :
    x.checkReadDouble = (0, d, { x with pos := (pre ++ xdrDouble d).length }) := by
  unfold LXdr.checkReadDouble
  rw [h.reads, h.opened, h.fread 8 1 (by decide) (xdrDouble_length d)]
  simp only [Bool.false_eq_true, if_false, Bool.not_true, ne_eq, not_true]
  rw [xdrDouble, ntohd_bigEndian, Nat.mod_eq_of_lt d.isLt, BitVec.ofNat_toNat, BitVec.setWidth_eq, h.reads, h.opened]

/-- A file open for writing at its end. -/
structure AtEnd (x : LXdr) : Prop where
  writes : x.forWrite = true
  opened : x.isOpen = true
  pos : x.pos = x.file.length

theorem AtEnd.fwrite {x : LXdr} (h : AtEnd x) (bs : List Byte) (count : Nat) :
    x.fwrite bs count = (count, { x with file := x.file ++ bs, pos := (x.file ++ bs).length }) := by
  unfold LXdr.fwrite
  have h1 : x.file.take x.pos = x.file := by rw [h.pos, List.take_length]
  have h2 : zeros (x.pos - x.file.length) = [] := by rw [h.pos, Nat.sub_self]; rfl
  have h3 : x.file.drop (x.pos + bs.length) = [] := List.drop_eq_nil_of_le (by rw [h.pos]; omega)
  rw [h1, h2, h3, List.append_nil, List.append_nil, h.pos, List.length_append]

theorem AtEnd.moved {x : LXdr} (h : AtEnd x) (bs : List Byte) (e : Nat) : AtEnd { x with file := x.file ++ bs, pos := (x.file ++ bs).length, err := e } :=
  ⟨h.writes, h.opened, rfl⟩

theorem checkWriteLong_end (x : LXdr) (h : AtEnd x) (n : Int) :
    x.checkWriteLong n = (lxWriteError, { x with file := x.file ++ xdrLong n, pos := (x.file ++ xdrLong n).length, err := lxWriteError }) := by
  unfold LXdr.checkWriteLong
  have hb : (leBytes 8 (bswap32 (BitVec.ofInt 32 n).toNat)).take 4 = xdrLong n := by
    rw [leBytes_take 8 4 _ (by decide), leBytes_bswap32, toNat_ofInt32, xdrLong]
  rw [h.writes, h.opened]
  simp only [hb, h.fwrite, h.writes, h.opened]
  rfl

theorem checkWriteDouble_end (x : LXdr) (h : AtEnd x) (d : W64) :
    x.checkWriteDouble d = (lxWriteError, { x with file := x.file ++ xdrDouble d, pos := (x.file ++ xdrDouble d).length, err := lxWriteError }) := by
  unfold LXdr.checkWriteDouble
  rw [h.writes, h.opened]
  simp only [leBytes_ntohd, h.fwrite, h.writes, h.opened]
  rfl

theorem ofImage_flatMap {α : Type} (size : Nat) (f : α → List Byte) (hf : ∀ a, (f a).length = size) (l : List α) :
    ofImage size l.length (l.flatMap f) = l.map fun a => ofLE (f a) := by
  induction l with
  | nil => rfl
  | cons a l ih =>
    rw [List.length_cons, ofImage, List.flatMap_cons, List.take_append_of_le_length (Nat.le_of_eq (hf a).symm), List.take_of_length_le (Nat.le_of_eq (hf a)),
      List.drop_append_of_le_length (Nat.le_of_eq (hf a).symm), List.drop_eq_nil_of_le (Nat.le_of_eq (hf a)), List.nil_append, ih, List.map_cons]

theorem roundLength_nat (n : Nat) (h : n < 2 ^ 31) : roundLength n = n + padding n := by
  unfold roundLength
  have e : (BitVec.ofInt 64 ((n : Int) + 3)).toNat = n + 3 := by
    rw [BitVec.toNat_ofInt]; omega
  rw [e]
  exact padLen_eq n (by omega)

end Util
