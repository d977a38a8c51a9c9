import Verif.Sio.BasicLemmas
import Verif.Spec.Items
/-
Closed forms of the write device.
-/
namespace Sio
open Spec

theorem wireArray_one (w : Nat) : wireArray 4 [w] = bigEndian 4 w := by
  simp [wireArray, padding]

theorem bytesOf_nil : bytesOf [] = [] := rfl
theorem bytesOf_cons (i : Item) (is : List Item) : bytesOf (i :: is) = itemBytes i ++ bytesOf is := rfl
theorem bytesOf_append (a b : List Item) : bytesOf (a ++ b) = bytesOf a ++ bytesOf b := by
  simp [bytesOf]

theorem bytesOf_length (is : List Item) : (bytesOf is).length = (is.map itemLen).sum := by
  induction is with
  | nil => rfl
  | cons i is ih => simp [bytesOf_cons, ih, itemLen]

theorem itemLen_ptr (w : Nat) : itemLen (.ptr w) = 4 := by simp [itemLen, itemBytes, bigEndian_length]
theorem itemLen_tag (w : Nat) : itemLen (.tag w) = 4 := by simp [itemLen, itemBytes, bigEndian_length]

theorem withWords_length (σ : Nat → Nat) (b : Nat) (is : List Item) : (withWords σ b is).length = is.length := by
  induction is generalizing b with
  | nil => rfl
  | cons i is ih => simp [withWords, ih]

theorem withWords_bytes_length (σ : Nat → Nat) (b : Nat) (is : List Item) :
    (bytesOf (withWords σ b is)).length = (bytesOf is).length := by
  induction is generalizing b with
  | nil => rfl
  | cons i is ih =>
    simp only [withWords, bytesOf_cons, List.length_append, ih]
    cases i <;> simp [setWord, itemBytes, bigEndian_length]

theorem withWords_append (σ : Nat → Nat) (b : Nat) (is js : List Item) :
    withWords σ b (is ++ js) = withWords σ b is ++ withWords σ (b + (bytesOf is).length) js := by
  induction is generalizing b with
  | nil => simp [withWords, bytesOf_nil]
  | cons i is ih =>
    simp only [List.cons_append, withWords, ih, bytesOf_cons, List.length_append, itemLen, Nat.add_assoc]

theorem offsets_append (b : Nat) (is js : List Item) :
    offsets b (is ++ js) = offsets b is ++ offsets (b + (bytesOf is).length) js := by
  induction is generalizing b with
  | nil => simp [offsets, bytesOf_nil]
  | cons i is ih =>
    simp only [List.cons_append, offsets, ih, bytesOf_cons, List.length_append, itemLen, Nat.add_assoc]

theorem withWords_congr (σ τ : Nat → Nat) (b : Nat) (is : List Item)
    (h : ∀ o a, (o, Item.ptr a) ∈ offsets b is ∨ (o, Item.tag a) ∈ offsets b is → σ o = τ o) :
    withWords σ b is = withWords τ b is := by
  induction is generalizing b with
  | nil => rfl
  | cons i is ih =>
    simp only [withWords]
    congr 1
    · cases i with
      | ptr a => simp only [setWord]; rw [h b a (by simp [offsets])]
      | tag a => simp only [setWord]; rw [h b a (by simp [offsets])]
      | _ => rfl
    · apply ih
      intro o a ho
      apply h o a
      rcases ho with ho | ho
      · left; simp [offsets, ho]
      · right; simp [offsets, ho]

theorem offsets_ge (b : Nat) (is : List Item) (o : Nat) (i : Item) (h : (o, i) ∈ offsets b is) : b ≤ o := by
  induction is generalizing b with
  | nil => simp [offsets] at h
  | cons j is ih =>
    simp only [offsets, List.mem_cons] at h
    rcases h with h | h
    · simp at h; omega
    · have := ih _ h; omega

theorem offsets_le (b : Nat) (is : List Item) (o : Nat) (i : Item) (h : (o, i) ∈ offsets b is) :
    o + itemLen i ≤ b + (bytesOf is).length := by
  induction is generalizing b with
  | nil => simp [offsets] at h
  | cons j is ih =>
    simp only [offsets, List.mem_cons] at h
    simp only [bytesOf_cons, List.length_append]
    rcases h with h | h
    · simp only [Prod.mk.injEq] at h
      obtain ⟨rfl, rfl⟩ := h
      unfold itemLen; omega
    · have := ih _ h; unfold itemLen at *; omega

/-- A pointer or tag item. -/
def isRef : Item → Bool
  | .ptr _ => true
  | .tag _ => true
  | _ => false

theorem itemLen_ref (i : Item) (h : isRef i = true) : itemLen i = 4 := by
  cases i <;> simp_all [isRef, itemLen_ptr, itemLen_tag]

/-- Two references never share an offset. -/
theorem offsets_ref_inj (b : Nat) (is : List Item) (o : Nat) (i j : Item) (hi : isRef i = true) (hj : isRef j = true)
    (h1 : (o, i) ∈ offsets b is) (h2 : (o, j) ∈ offsets b is) : i = j := by
  induction is generalizing b with
  | nil => simp [offsets] at h1
  | cons k is ih =>
    simp only [offsets, List.mem_cons] at h1 h2
    rcases h1 with h1 | h1 <;> rcases h2 with h2 | h2
    · simp only [Prod.mk.injEq] at h1 h2
      rw [h1.2, h2.2]
    · simp only [Prod.mk.injEq] at h1
      have := offsets_ge _ _ _ _ h2
      obtain ⟨rfl, rfl⟩ := h1
      rw [itemLen_ref _ hi] at this; omega
    · simp only [Prod.mk.injEq] at h2
      have := offsets_ge _ _ _ _ h1
      obtain ⟨rfl, rfl⟩ := h2
      rw [itemLen_ref _ hj] at this; omega
    · exact ih _ h1 h2

/-! ### Writing -/

theorem WDev.data_eq (d : WDev) (size : Nat) (vals : List Nat) (hc : d.cur ≤ d.buf.length)
    (hs : size * vals.length + 3 < 2 ^ 32) :
    d.data size vals = .ok { d with
      buf := d.buf.take d.cur ++ wireArray size vals ++
        (grown d.buf d.cur (wireArray size vals).length).drop (d.cur + (wireArray size vals).length),
      cur := d.cur + (wireArray size vals).length } := by
  unfold WDev.data
  rw [apiWrite_eq _ _ _ _ hc hs]

/-- The pointed-at table after writing items. -/
def tagTable (m : List (Nat × Nat)) : List (Nat × Item) → List (Nat × Nat)
  | [] => m
  | (o, .tag a) :: is => tagTable (mapInsert a o m) is
  | _ :: is => tagTable m is

/-- The pointer-to table after writing items. -/
def ptrTable (m : List (Nat × Nat)) : List (Nat × Item) → List (Nat × Nat)
  | [] => m
  | (o, .ptr a) :: is => ptrTable (if a = 0 then m else multiInsert a o m) is
  | _ :: is => ptrTable m is

/-- What is on the wire for a reference before relocation. -/
def blank : Item → Item
  | .ptr _ => .ptr 0
  | .tag _ => .tag 0xffffffff
  | i => i

theorem WDev.step_eq (d : WDev) (i : Item) (hc : d.cur ≤ d.buf.length) (hf : fits i) :
    ∃ d', d.step i = .ok d' ∧ d'.cur = d.cur + itemLen i ∧
      d'.buf = d.buf.take d.cur ++ itemBytes (blank i) ++ (grown d.buf d.cur (itemLen i)).drop (d.cur + itemLen i) ∧
      d'.pointedAt = tagTable d.pointedAt [(d.cur, i)] ∧ d'.pointerTo = ptrTable d.pointerTo [(d.cur, i)] := by
  cases i with
  | arr s v =>
    refine ⟨_, WDev.data_eq d s v hc hf, rfl, rfl, rfl, rfl⟩
  | ptr a =>
    have h := WDev.data_eq (if a = 0 then d else { d with pointerTo := multiInsert a d.cur d.pointerTo }) 4 [0]
      (by split <;> exact hc) (by simp)
    refine ⟨_, h, ?_, ?_, ?_, ?_⟩
    · rw [itemLen_ptr, wireArray_one, bigEndian_length]; split <;> rfl
    · rw [itemLen_ptr, wireArray_one, bigEndian_length]; split <;> rfl
    · simp only [tagTable]; split <;> rfl
    · simp only [ptrTable]; split <;> simp_all
  | tag a =>
    have h := WDev.data_eq { d with pointedAt := mapInsert a d.cur d.pointedAt } 4 [0xffffffff] hc (by simp)
    refine ⟨_, h, ?_, ?_, rfl, rfl⟩
    · rw [itemLen_tag, wireArray_one, bigEndian_length]
    · rw [itemLen_tag, wireArray_one, bigEndian_length]; rfl
  | bad => exact hf.elim

theorem tagTable_append (m : List (Nat × Nat)) (a b : List (Nat × Item)) :
    tagTable m (a ++ b) = tagTable (tagTable m a) b := by
  induction a generalizing m with
  | nil => rfl
  | cons x a ih =>
    obtain ⟨o, i⟩ := x
    cases i <;> simp [tagTable, ih]

theorem ptrTable_append (m : List (Nat × Nat)) (a b : List (Nat × Item)) :
    ptrTable m (a ++ b) = ptrTable (ptrTable m a) b := by
  induction a generalizing m with
  | nil => rfl
  | cons x a ih =>
    obtain ⟨o, i⟩ := x
    cases i <;> simp [ptrTable, ih]

theorem itemLen_blank (i : Item) : (itemBytes (blank i)).length = itemLen i := by
  cases i <;> simp [blank, itemLen, itemBytes, bigEndian_length]

/-- Running items: the bytes go at the cursor, everything else stays. -/
theorem WDev.run_eq (d : WDev) (is : List Item) (hc : d.cur ≤ d.buf.length) (hf : ∀ i ∈ is, fits i) :
    ∃ d', d.run is = .ok d' ∧ d'.cur = d.cur + (bytesOf is).length ∧ d'.cur ≤ d'.buf.length ∧
      d.buf.length ≤ d'.buf.length ∧
      d'.buf.take d'.cur = d.buf.take d.cur ++ bytesOf (is.map blank) ∧
      (∀ j, d'.cur ≤ j → j < d.buf.length → d'.buf[j]? = d.buf[j]?) ∧
      d'.pointedAt = tagTable d.pointedAt (offsets d.cur is) ∧ d'.pointerTo = ptrTable d.pointerTo (offsets d.cur is) := by
  induction is generalizing d with
  | nil => exact ⟨d, rfl, by simp [bytesOf_nil], hc, Nat.le_refl _, by simp [bytesOf_nil], fun _ _ _ => rfl, rfl, rfl⟩
  | cons i is ih =>
    obtain ⟨d1, h1, hcur1, hbuf1, hpa1, hpt1⟩ := WDev.step_eq d i hc (hf i (by simp))
    have hg := grown_length d.buf d.cur (itemLen i) hc
    have hib := itemLen_blank i
    have hl1 : d1.buf.length = (grown d.buf d.cur (itemLen i)).length := by
      rw [hbuf1]; simp only [List.length_append, List.length_take, List.length_drop, hib]; omega
    obtain ⟨d2, h2, hcur2, hle2, hlen2, htake2, hfr2, hpa2, hpt2⟩ := ih d1 (by omega) (fun j hj => hf j (by simp [hj]))
    refine ⟨d2, ?_, ?_, hle2, by omega, ?_, ?_, ?_, ?_⟩
    · simp only [WDev.run, h1, h2]
    · rw [hcur2, hcur1, bytesOf_cons, List.length_append]; unfold itemLen; omega
    · rw [htake2, List.map_cons, bytesOf_cons, ← List.append_assoc]
      congr 1
      rw [hbuf1, hcur1, List.take_left']
      simp only [List.length_append, List.length_take, hib]; omega
    · intro j hj1 hj2
      rw [hfr2 j hj1 (by omega), hbuf1]
      have : d.cur + itemLen i ≤ j := by omega
      rw [List.getElem?_append_right (by simp only [List.length_append, List.length_take, hib]; omega)]
      simp only [List.length_append, List.length_take, hib, List.getElem?_drop]
      have e : d.cur + itemLen i + (j - (min d.cur d.buf.length + itemLen i)) = j := by omega
      rw [e]
      unfold grown
      split
      · rw [List.getElem?_append_left hj2]
      · rfl
    · rw [hpa2, hpa1, hcur1, show offsets d.cur (i :: is) = [(d.cur, i)] ++ offsets (d.cur + itemLen i) is from rfl, tagTable_append]
    · rw [hpt2, hpt1, hcur1, show offsets d.cur (i :: is) = [(d.cur, i)] ++ offsets (d.cur + itemLen i) is from rfl, ptrTable_append]

end Sio
