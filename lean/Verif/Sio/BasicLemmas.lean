import Verif.Spec.Wire
/-
Lemmas about the raw byte copies: reduction of the nested copy loop to the wire specification.
-/
namespace Sio
open Spec

theorem leBytes_length (n v : Nat) : (leBytes n v).length = n := by
  induction n generalizing v with
  | zero => rfl
  | succ n ih => simp [leBytes, ih]

theorem ofLE_leBytes (n v : Nat) : ofLE (leBytes n v) = v % 256 ^ n := by
  induction n generalizing v with
  | zero => simp [leBytes, ofLE, Nat.mod_one]
  | succ n ih =>
    simp only [leBytes, ofLE, ih]
    have h : (UInt8.ofNat (v % 256)).toNat = v % 256 := by
      simp [UInt8.toNat_ofNat']
    rw [h, Nat.pow_succ, Nat.mul_comm (256 ^ n) 256, Nat.mod_mul]

theorem leBytes_getElem? (n v i : Nat) (h : i < n) :
    (leBytes n v)[i]? = some (UInt8.ofNat (v / 256 ^ i % 256)) := by
  induction n generalizing v i with
  | zero => omega
  | succ n ih =>
    cases i with
    | zero => simp [leBytes]
    | succ i =>
      simp only [leBytes, List.getElem?_cons_succ]
      rw [ih _ _ (by omega), Nat.div_div_eq_div_mul, ← Nat.pow_succ']

theorem bigEndian_length (n v : Nat) : (bigEndian n v).length = n := by simp [bigEndian]

theorem bigEndian_getElem? (n v i : Nat) (h : i < n) :
    (bigEndian n v)[i]? = (leBytes n v)[n - 1 - i]? := by
  rw [leBytes_getElem? _ _ _ (by omega)]
  simp [bigEndian, h]

theorem flatMap_length_const {α : Type} (f : α → List Byte) (n : Nat) (hf : ∀ a, (f a).length = n)
    (l : List α) : (l.flatMap f).length = n * l.length := by
  induction l with
  | nil => simp
  | cons a l ih => simp only [List.flatMap_cons, List.length_append, List.length_cons, ih, hf, Nat.mul_succ]; omega

theorem flatMap_getElem?_const {α : Type} (f : α → List Byte) (n : Nat) (hn : 0 < n) (hf : ∀ a, (f a).length = n)
    (l : List α) (j : Nat) :
    (l.flatMap f)[j]? = (l[j / n]?).bind (fun a => (f a)[j % n]?) := by
  induction l generalizing j with
  | nil => simp
  | cons a l ih =>
    rw [List.flatMap_cons, List.getElem?_append, hf]
    by_cases h : j < n
    · simp [h, Nat.div_eq_of_lt h, Nat.mod_eq_of_lt h]
    · have h1 : j / n = (j - n) / n + 1 := by
        rw [Nat.div_eq_sub_div hn (by omega)]
      have h2 : j % n = (j - n) % n := by
        rw [Nat.mod_eq_sub_mod (by omega)]
      simp only [h, if_false]
      rw [ih, h1, h2]; simp

theorem memImage_length (size : Nat) (vals : List Nat) : (memImage size vals).length = size * vals.length :=
  flatMap_length_const _ _ (leBytes_length size) _

/-- A loop of `set`s in which the value stored depends on the index only. -/
theorem foldl_set_getElem? {α : Type} (f : α → Nat) (h : Nat → Byte) (L : List α) (d : List Byte) (j : Nat) :
    (L.foldl (fun d x => d.set (f x) (h (f x))) d)[j]? =
      if j ∈ L.map f ∧ j < d.length then some (h j) else d[j]? := by
  induction L generalizing d with
  | nil => simp
  | cons x L ih =>
    rw [List.foldl_cons, ih]
    simp only [List.length_set, List.map_cons, List.mem_cons]
    by_cases h1 : j ∈ L.map f
    · by_cases h2 : j < d.length
      · simp [h1, h2]
      · simp [h1, h2]
    · by_cases h3 : j = f x
      · subst h3
        by_cases h2 : f x < d.length
        · simp [h1, h2]
        · simp [h1, h2]
      · simp only [h1, h3, false_or, false_and, if_false]
        rw [List.getElem?_set_ne (by omega)]

theorem foldl_set_length {α : Type} (f : α → Nat) (g : α → Byte) (L : List α) (d : List Byte) :
    (L.foldl (fun d x => d.set (f x) (g x)) d).length = d.length := by
  induction L generalizing d with
  | nil => rfl
  | cons x L ih => rw [List.foldl_cons, ih]; simp

theorem foldl_foldl_eq {α β σ : Type} (f : σ → α → β → σ) (A : List α) (B : List β) (d : σ) :
    A.foldl (fun d a => B.foldl (fun d b => f d a b) d) d =
      (A.flatMap (fun a => B.map (fun b => (a, b)))).foldl (fun d p => f d p.1 p.2) d := by
  induction A generalizing d with
  | nil => rfl
  | cons a A ih =>
    rw [List.foldl_cons, ih, List.flatMap_cons, List.foldl_append]
    congr 1
    rw [List.foldl_map]

/-- index of the source byte that ends up at relative destination index `j`. -/
def revIdx (size j : Nat) : Nat := (size - 1 - j % size) + j / size * size

theorem revIdx_fwd (size s c : Nat) (hs : s < size) : revIdx size ((size - 1) - s + c * size) = s + c * size := by
  have h1 : ((size - 1) - s + c * size) % size = size - 1 - s := by
    rw [Nat.add_mul_mod_self_right, Nat.mod_eq_of_lt (by omega)]
  have h2 : ((size - 1) - s + c * size) / size = c := by
    rw [Nat.add_mul_div_right _ _ (by omega), Nat.div_eq_of_lt (by omega)]; omega
  unfold revIdx
  rw [h1, h2]; omega

theorem reverseCopy_eq (src : List Byte) (so : Nat) (dst : List Byte) (d0 size count : Nat) :
    reverseCopy src so dst d0 size count =
      ((List.range size).flatMap (fun s => (List.range count).map (fun c => (s, c)))).foldl
        (fun d p => d.set (d0 + ((size - 1) - p.1 + p.2 * size)) (src.getD (so + (p.1 + p.2 * size)) 0)) dst := by
  unfold reverseCopy
  exact foldl_foldl_eq (fun (d : List Byte) (s c : Nat) => d.set (d0 + ((size - 1) - s + c * size)) (src.getD (so + (s + c * size)) 0)) _ _ _

theorem foldl_congr_mem {α σ : Type} (f g : σ → α → σ) (L : List α) (d : σ)
    (h : ∀ d, ∀ x ∈ L, f d x = g d x) : L.foldl f d = L.foldl g d := by
  induction L generalizing d with
  | nil => rfl
  | cons x L ih =>
    rw [List.foldl_cons, List.foldl_cons, h d x (by simp), ih]
    intro d y hy; exact h d y (by simp [hy])

theorem reverseCopy_length (src : List Byte) (so : Nat) (dst : List Byte) (d0 size count : Nat) :
    (reverseCopy src so dst d0 size count).length = dst.length := by
  rw [reverseCopy_eq]; exact foldl_set_length _ _ _ _

theorem reverseCopy_getElem? (src : List Byte) (so : Nat) (dst : List Byte) (d0 size count j : Nat)
    (hd : d0 + size * count ≤ dst.length) :
    (reverseCopy src so dst d0 size count)[j]? =
      if d0 ≤ j ∧ j < d0 + size * count then some (src.getD (so + revIdx size (j - d0)) 0) else dst[j]? := by
  rw [reverseCopy_eq]
  rw [foldl_congr_mem _ (fun d (p : Nat × Nat) => d.set ((fun p : Nat × Nat => d0 + ((size - 1) - p.1 + p.2 * size)) p)
      ((fun i => src.getD (so + revIdx size (i - d0)) 0) ((fun p : Nat × Nat => d0 + ((size - 1) - p.1 + p.2 * size)) p)))]
  · rw [foldl_set_getElem? (fun p : Nat × Nat => d0 + ((size - 1) - p.1 + p.2 * size)) (fun i => src.getD (so + revIdx size (i - d0)) 0)]
    have key : (j ∈ List.map (fun p : Nat × Nat => d0 + ((size - 1) - p.1 + p.2 * size))
        ((List.range size).flatMap (fun s => (List.range count).map (fun c => (s, c))))) ↔
        (d0 ≤ j ∧ j < d0 + size * count) := by
      simp only [List.mem_map, List.mem_flatMap, List.mem_range, Prod.exists]
      constructor
      · rintro ⟨s, c, ⟨s', hs', c', hc', heq⟩, rfl⟩
        simp only [Prod.mk.injEq] at heq
        obtain ⟨rfl, rfl⟩ := heq
        refine ⟨by omega, ?_⟩
        have : (c' + 1) * size ≤ count * size := Nat.mul_le_mul_right _ hc'
        rw [Nat.mul_comm size count]
        rw [Nat.add_mul] at this
        omega
      · rintro ⟨h1, h2⟩
        have hsz : 0 < size := by
          rcases Nat.eq_zero_or_pos size with h | h
          · subst h; simp at h2; omega
          · exact h
        have hm := Nat.mod_lt (j - d0) hsz
        refine ⟨size - 1 - (j - d0) % size, (j - d0) / size, ⟨size - 1 - (j - d0) % size, by omega, (j - d0) / size, ?_, rfl⟩, ?_⟩
        · rw [Nat.div_lt_iff_lt_mul hsz, Nat.mul_comm]; omega
        · have := Nat.div_add_mod' (j - d0) size
          omega
    by_cases h : d0 ≤ j ∧ j < d0 + size * count
    · rw [if_pos ⟨key.2 h, by omega⟩, if_pos h]
    · rw [if_neg (fun h' => h (key.1 h'.1)), if_neg h]
  · intro d p hp
    simp only [List.mem_map, List.mem_flatMap, List.mem_range] at hp
    obtain ⟨s, hs, c, hc, rfl⟩ := hp
    simp only [Nat.add_sub_cancel_left]
    rw [revIdx_fwd _ _ _ hs]

/-- Writing side of the copy: the elements land big-endian at the destination. -/
theorem reverseCopy_write (size : Nat) (vals : List Nat) (dst : List Byte) (d0 : Nat)
    (hd : d0 + size * vals.length ≤ dst.length) :
    reverseCopy (memImage size vals) 0 dst d0 size vals.length =
      dst.take d0 ++ vals.flatMap (bigEndian size) ++ dst.drop (d0 + size * vals.length) := by
  apply List.ext_getElem?
  intro j
  rw [reverseCopy_getElem? _ _ _ _ _ _ _ hd]
  have hlen : (vals.flatMap (bigEndian size)).length = size * vals.length :=
    flatMap_length_const _ _ (bigEndian_length size) _
  by_cases h : d0 ≤ j ∧ j < d0 + size * vals.length
  · rw [if_pos h]
    have hsz : 0 < size := by
      rcases Nat.eq_zero_or_pos size with h' | h'
      · subst h'; simp at h; omega
      · exact h'
    rw [List.append_assoc, List.getElem?_append_right (by simp; omega), List.length_take, Nat.min_eq_left (by omega),
      List.getElem?_append_left (by omega), flatMap_getElem?_const _ _ hsz (bigEndian_length size)]
    have hm := Nat.mod_lt (j - d0) hsz
    have hdiv : (j - d0) / size < vals.length := by
      rw [Nat.div_lt_iff_lt_mul hsz, Nat.mul_comm]; omega
    have hq : vals[(j - d0) / size]? = some vals[(j - d0) / size] := List.getElem?_eq_getElem hdiv
    rw [hq, Option.bind_some, bigEndian_getElem? _ _ _ hm]
    have hsrc : (memImage size vals)[revIdx size (j - d0)]? = (leBytes size vals[(j - d0) / size])[size - 1 - (j - d0) % size]? := by
      unfold memImage revIdx
      rw [flatMap_getElem?_const _ _ hsz (leBytes_length size)]
      rw [Nat.add_mul_div_right _ _ hsz, Nat.div_eq_of_lt (by omega), Nat.zero_add, Nat.add_mul_mod_self_right,
        Nat.mod_eq_of_lt (by omega : size - 1 - (j - d0) % size < size), hq, Option.bind_some]
    rw [List.getD_eq_getElem?_getD, Nat.zero_add, hsrc, leBytes_getElem? _ _ _ (by omega)]
    rfl
  · rw [if_neg h]
    by_cases h1 : j < d0
    · rw [List.append_assoc, List.getElem?_append_left (by simp; omega), List.getElem?_take, if_pos h1]
    · rw [List.getElem?_append_right (by simp [hlen]; omega)]
      simp only [List.length_append, List.length_take, hlen, List.getElem?_drop]
      congr 1; omega

theorem ofImage_memImage (size : Nat) (vals : List Nat) (rest : List Byte) :
    ofImage size vals.length (memImage size vals ++ rest) = vals.map (· % 256 ^ size) := by
  induction vals with
  | nil => rfl
  | cons v vals ih =>
    have h : memImage size (v :: vals) = leBytes size v ++ memImage size vals := rfl
    rw [h, List.length_cons, ofImage, List.append_assoc, List.take_left' (leBytes_length size v),
      List.drop_left' (leBytes_length size v), ofLE_leBytes, ih]
    rfl

/-- Reading side of the copy: big-endian elements in the source become the elements in memory. -/
theorem reverseCopy_read (size : Nat) (vals : List Nat) (pre post : List Byte) :
    reverseCopy (pre ++ vals.flatMap (bigEndian size) ++ post) pre.length (zeros (size * vals.length)) 0 size vals.length =
      memImage size vals := by
  apply List.ext_getElem?
  intro j
  rw [reverseCopy_getElem? _ _ _ _ _ _ _ (by simp [zeros])]
  have hlen : (vals.flatMap (bigEndian size)).length = size * vals.length :=
    flatMap_length_const _ _ (bigEndian_length size) _
  by_cases h : j < size * vals.length
  · have hsz : 0 < size := by
      rcases Nat.eq_zero_or_pos size with h' | h'
      · subst h'; simp at h
      · exact h'
    rw [if_pos ⟨Nat.zero_le _, by omega⟩, Nat.sub_zero]
    have hm := Nat.mod_lt j hsz
    have hdiv : j / size < vals.length := by
      rw [Nat.div_lt_iff_lt_mul hsz, Nat.mul_comm]; omega
    have hq : vals[j / size]? = some vals[j / size] := List.getElem?_eq_getElem hdiv
    have hr1 : (revIdx size j) / size = j / size := by
      unfold revIdx; rw [Nat.add_mul_div_right _ _ hsz, Nat.div_eq_of_lt (by omega), Nat.zero_add]
    have hr2 : (revIdx size j) % size = size - 1 - j % size := by
      unfold revIdx; rw [Nat.add_mul_mod_self_right, Nat.mod_eq_of_lt (by omega)]
    have hrl : revIdx size j < size * vals.length := by
      have := (Nat.div_lt_iff_lt_mul hsz (x := revIdx size j) (y := vals.length)).1 (by rw [hr1]; exact hdiv)
      rw [Nat.mul_comm]; exact this
    rw [List.getD_eq_getElem?_getD, List.append_assoc, List.getElem?_append_right (by omega), Nat.add_sub_cancel_left,
      List.getElem?_append_left (by omega), flatMap_getElem?_const _ _ hsz (bigEndian_length size), hr1, hr2, hq, Option.bind_some,
      bigEndian_getElem? _ _ _ (by omega)]
    unfold memImage
    rw [flatMap_getElem?_const _ _ hsz (leBytes_length size), hq, Option.bind_some]
    have : size - 1 - (size - 1 - j % size) = j % size := by omega
    rw [this, leBytes_getElem? _ _ _ hm]; rfl
  · rw [if_neg (by omega), List.getElem?_eq_none (by simp [zeros]; omega), List.getElem?_eq_none (by rw [memImage_length]; omega)]

theorem padLen_eq (n : Nat) (h : n + 3 < 2 ^ 32) : padLen n = n + padding n := by
  have key : (n + 3) &&& 0xfffffffc = ((n + 3) / 4 % 2 ^ 30) * 4 := by
    apply Nat.eq_of_testBit_eq
    intro i
    have e1 : (0xfffffffc : Nat) = (2 ^ 30 - 1) * 2 ^ 2 := by decide
    have e2 : (4 : Nat) = 2 ^ 2 := by decide
    rw [e1, e2, Nat.testBit_and, Nat.testBit_mul_two_pow, Nat.testBit_mul_two_pow, Nat.testBit_mod_two_pow,
      Nat.testBit_two_pow_sub_one, Nat.testBit_div_two_pow]
    by_cases hi : 2 ≤ i
    · simp only [hi, decide_true, Bool.true_and]
      rw [Nat.sub_add_cancel hi, Bool.and_comm]
    · simp [hi]
  unfold padLen padding
  rw [key]
  omega

theorem padLen_ge (n : Nat) (h : n + 3 < 2 ^ 32) : n ≤ padLen n := by rw [padLen_eq n h]; omega

theorem wireArray_length (size : Nat) (vals : List Nat) :
    (wireArray size vals).length = size * vals.length + padding (size * vals.length) := by
  simp only [wireArray, List.length_append, List.length_replicate]
  rw [flatMap_length_const _ _ (bigEndian_length size)]

theorem wireArray_length_padLen (size : Nat) (vals : List Nat) (h : size * vals.length + 3 < 2 ^ 32) :
    (wireArray size vals).length = padLen (size * vals.length) := by
  rw [wireArray_length, padLen_eq _ h]

theorem resize_length (buf : List Byte) (n : Nat) : (resize buf n).length = n := by
  simp [resize, zeros]; omega

theorem resize_grow (buf : List Byte) (n : Nat) (h : buf.length ≤ n) :
    resize buf n = buf ++ zeros (n - buf.length) := by
  unfold resize; rw [List.take_of_length_le h]

theorem zeroLoop (b : List Byte) (pos start n : Nat) (h : pos + start + n ≤ b.length) :
    (List.range' start n).foldl (fun d i => d.set (pos + i) 0) b =
      b.take (pos + start) ++ List.replicate n 0 ++ b.drop (pos + start + n) := by
  apply List.ext_getElem?
  intro j
  rw [foldl_set_getElem? (fun i => pos + i) (fun _ => 0)]
  have key : (j ∈ (List.range' start n).map (fun i => pos + i)) ↔ (pos + start ≤ j ∧ j < pos + start + n) := by
    simp only [List.mem_map, List.mem_range'_1]
    constructor
    · rintro ⟨a, h1, rfl⟩; omega
    · intro h1; exact ⟨j - pos, by omega, by omega⟩
  by_cases hj : pos + start ≤ j ∧ j < pos + start + n
  · rw [if_pos ⟨key.2 hj, by omega⟩, List.append_assoc, List.getElem?_append_right (by simp; omega),
      List.getElem?_append_left (by simp; omega), List.getElem?_replicate, if_pos (by simp; omega)]
  · rw [if_neg (fun h' => hj (key.1 h'.1))]
    by_cases h1 : j < pos + start
    · rw [List.append_assoc, List.getElem?_append_left (by simp; omega), List.getElem?_take, if_pos h1]
    · rw [List.getElem?_append_right (by simp; omega)]
      simp only [List.length_append, List.length_take, List.length_replicate, List.getElem?_drop]
      congr 1; omega

/-- The buffer as `api::write` leaves it before copying. -/
def grown (buf : List Byte) (pos padlen : Nat) : List Byte :=
  if pos + padlen ≥ buf.length then buf ++ zeros (max buf.length padlen) else buf

theorem grown_length (buf : List Byte) (pos padlen : Nat) (h : pos ≤ buf.length) :
    pos + padlen ≤ (grown buf pos padlen).length ∧ buf.length ≤ (grown buf pos padlen).length := by
  unfold grown; split <;> simp [zeros] <;> omega

theorem grown_take (buf : List Byte) (pos padlen n : Nat) (h : n ≤ buf.length) :
    (grown buf pos padlen).take n = buf.take n := by
  unfold grown; split
  · rw [List.take_append_of_le_length h]
  · rfl

/-- `api::write` in closed form. -/
theorem apiWrite_eq (buf : List Byte) (size : Nat) (vals : List Nat) (pos : Nat)
    (hpos : pos ≤ buf.length) (hsz : size * vals.length + 3 < 2 ^ 32) :
    apiWrite buf size vals pos =
      .ok (buf.take pos ++ wireArray size vals ++
            (grown buf pos (wireArray size vals).length).drop (pos + (wireArray size vals).length),
           (wireArray size vals).length) := by
  have hp := padLen_ge _ hsz
  have hw := wireArray_length_padLen size vals hsz
  have hg := grown_length buf pos (padLen (size * vals.length)) hpos
  unfold apiWrite
  simp only []
  have hres : (if pos + padLen (size * vals.length) ≥ buf.length then resize buf (buf.length + max buf.length (padLen (size * vals.length))) else buf)
      = grown buf pos (padLen (size * vals.length)) := by
    unfold grown
    split
    · rw [resize_grow _ _ (by omega), Nat.add_sub_cancel_left]
    · rfl
  rw [hres, if_neg (by omega), hw]
  congr 2
  rw [reverseCopy_write _ _ _ _ (by omega)]
  have hfl : (vals.flatMap (bigEndian size)).length = size * vals.length :=
    flatMap_length_const _ _ (bigEndian_length size) _
  rw [zeroLoop _ _ _ _ (by simp [hfl]; omega)]
  have hl1 : (List.take pos (grown buf pos (padLen (size * vals.length))) ++ vals.flatMap (bigEndian size)).length = pos + size * vals.length := by
    simp [hfl]; omega
  rw [List.take_left' hl1]
  rw [grown_take _ _ _ _ hpos] at hl1
  have hpadeq : padLen (size * vals.length) - size * vals.length = padding (size * vals.length) := by
    rw [padLen_eq _ hsz]; omega
  rw [grown_take _ _ _ _ hpos, hpadeq]
  rw [List.drop_append, hl1]
  rw [List.drop_eq_nil_of_le (by rw [hl1]; omega), List.nil_append, List.drop_drop]
  unfold wireArray
  simp only [List.append_assoc]
  congr 4
  rw [padLen_eq _ hsz]; omega

/-- `api::read` returns the elements of a wire array found at the position. -/
theorem apiRead_eq (pre post : List Byte) (size : Nat) (vals : List Nat) (hsz : size * vals.length + 3 < 2 ^ 32) :
    apiRead (pre ++ wireArray size vals ++ post) size pre.length vals.length =
      .ok (vals.map (· % 256 ^ size), (wireArray size vals).length) := by
  have hw := wireArray_length_padLen size vals hsz
  have hp := padLen_ge _ hsz
  unfold apiRead
  simp only []
  rw [if_neg (by simp [hw]), if_neg (by simp [hw]; omega)]
  congr 2
  · have : pre ++ wireArray size vals ++ post = pre ++ vals.flatMap (bigEndian size) ++ (List.replicate (padding (size * vals.length)) 0 ++ post) := by
      simp [wireArray]
    rw [this, reverseCopy_read]
    have := ofImage_memImage size vals []
    rwa [List.append_nil] at this
  · exact hw.symm

end Sio
