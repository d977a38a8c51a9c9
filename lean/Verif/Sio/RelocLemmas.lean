import Verif.Sio.DeviceLemmas
/-
Pointer relocation on write: the final bytes are the items with an injective numbering of addresses.
-/
namespace Sio
open Spec

/-! ### Tables -/

/-- Strictly sorted keys: what a `std::map` guarantees. -/
def SortedMap (m : List (Nat × Nat)) : Prop := m.Pairwise (fun a b => a.1 < b.1)
/-- Sorted keys: what a `std::multimap` guarantees. -/
def SortedMulti (m : List (Nat × Nat)) : Prop := m.Pairwise (fun a b => a.1 ≤ b.1)

theorem mapFind_cons (k : Nat) (e : Nat × Nat) (m : List (Nat × Nat)) :
    mapFind k (e :: m) = if e.1 = k then some e.2 else mapFind k m := by
  simp only [mapFind, List.find?]
  by_cases h : e.1 = k
  · simp [h]
  · have : (e.1 == k) = false := by simpa using h
    simp [h, this]

theorem mapFind_none_of_lt (k : Nat) (m : List (Nat × Nat)) (h : ∀ e ∈ m, k < e.1) : mapFind k m = none := by
  induction m with
  | nil => rfl
  | cons e m ih =>
    rw [mapFind_cons, if_neg (by have := h e (by simp); omega), ih (fun x hx => h x (by simp [hx]))]

theorem mapInsert_mem (k v : Nat) (m : List (Nat × Nat)) (e : Nat × Nat) (h : e ∈ mapInsert k v m) :
    e = (k, v) ∨ e ∈ m := by
  induction m with
  | nil => simpa [mapInsert] using h
  | cons x m ih =>
    obtain ⟨k0, v0⟩ := x
    simp only [mapInsert] at h
    split at h
    · simpa using h
    · split at h
      · right; exact h
      · simp only [List.mem_cons] at h ⊢
        rcases h with h | h
        · right; left; exact h
        · rcases ih h with h | h
          · left; exact h
          · right; right; exact h

theorem mapInsert_sorted (k v : Nat) (m : List (Nat × Nat)) (hs : SortedMap m) : SortedMap (mapInsert k v m) := by
  induction m with
  | nil => simp [mapInsert, SortedMap]
  | cons x m ih =>
    obtain ⟨k0, v0⟩ := x
    have hs' := List.pairwise_cons.1 hs
    simp only [mapInsert]
    split
    · apply List.pairwise_cons.2
      refine ⟨?_, hs⟩
      intro y hy
      simp only [List.mem_cons] at hy
      rcases hy with rfl | hy
      · assumption
      · have := hs'.1 y hy; omega
    · split
      · exact hs
      · apply List.pairwise_cons.2
        refine ⟨?_, ih hs'.2⟩
        intro y hy
        rcases mapInsert_mem _ _ _ _ hy with rfl | hy
        · simp; omega
        · exact hs'.1 y hy

theorem mapFind_mapInsert (k v k' : Nat) (m : List (Nat × Nat)) (hs : SortedMap m) :
    mapFind k' (mapInsert k v m) = if k' = k then some ((mapFind k m).getD v) else mapFind k' m := by
  induction m with
  | nil => simp only [mapInsert, mapFind_cons]; by_cases h : k = k' <;> simp [h, mapFind]; omega
  | cons e m ih =>
    obtain ⟨k0, v0⟩ := e
    have hs' := List.pairwise_cons.1 hs
    simp only [mapInsert]
    split
    · rename_i h1
      rw [mapFind_cons]
      by_cases h : k' = k
      · subst h
        rw [mapFind_none_of_lt k' ((k0, v0) :: m)]
        · simp
        · intro y hy
          simp only [List.mem_cons] at hy
          rcases hy with rfl | hy
          · exact h1
          · have := hs'.1 y hy; simp at this; omega
      · rw [if_neg (by simp; omega), if_neg h]
    · split
      · rename_i h1 h2
        subst h2
        by_cases h : k' = k
        · subst h; simp [mapFind_cons]
        · rw [if_neg h]
      · rename_i h1 h2
        rw [mapFind_cons, ih hs'.2]
        by_cases h : k' = k
        · subst h
          simp only [if_true]
          rw [if_neg (fun h => h2 h.symm), mapFind_cons, if_neg (fun h => h2 h.symm)]
        · rw [if_neg h, if_neg h, mapFind_cons]

theorem multiInsert_mem (k v : Nat) (m : List (Nat × Nat)) (e : Nat × Nat) :
    e ∈ multiInsert k v m ↔ e = (k, v) ∨ e ∈ m := by
  induction m with
  | nil => simp [multiInsert]
  | cons x m ih =>
    obtain ⟨k0, v0⟩ := x
    simp only [multiInsert]
    split
    · simp
    · simp only [List.mem_cons, ih]
      constructor
      · rintro (h | h | h) <;> simp [h]
      · rintro (h | h | h) <;> simp [h]

theorem multiInsert_length (k v : Nat) (m : List (Nat × Nat)) : (multiInsert k v m).length = m.length + 1 := by
  induction m with
  | nil => rfl
  | cons x m ih =>
    obtain ⟨k0, v0⟩ := x
    simp only [multiInsert]
    split <;> simp [ih]

theorem multiInsert_sorted (k v : Nat) (m : List (Nat × Nat)) (hs : SortedMulti m) : SortedMulti (multiInsert k v m) := by
  induction m with
  | nil => simp [multiInsert, SortedMulti]
  | cons x m ih =>
    obtain ⟨k0, v0⟩ := x
    have hs' := List.pairwise_cons.1 hs
    simp only [multiInsert]
    split
    · apply List.pairwise_cons.2
      refine ⟨?_, hs⟩
      intro y hy
      simp only [List.mem_cons] at hy
      rcases hy with rfl | hy
      · simp; omega
      · have := hs'.1 y hy; simp at this ⊢; omega
    · apply List.pairwise_cons.2
      refine ⟨?_, ih hs'.2⟩
      intro y hy
      rcases (multiInsert_mem _ _ _ _).1 hy with rfl | hy
      · simp; omega
      · exact hs'.1 y hy

/-! ### The tables after writing -/

theorem tagTable_sorted (m : List (Nat × Nat)) (ois : List (Nat × Item)) (hs : SortedMap m) : SortedMap (tagTable m ois) := by
  induction ois generalizing m with
  | nil => exact hs
  | cons x ois ih =>
    obtain ⟨o, i⟩ := x
    cases i <;> simp only [tagTable] <;> apply ih <;> first | exact hs | exact mapInsert_sorted _ _ _ hs

/-- The first tag of an address. -/
def firstTag (a : Nat) : List (Nat × Item) → Option Nat
  | [] => none
  | (o, .tag a') :: is => if a' = a then some o else firstTag a is
  | _ :: is => firstTag a is

theorem mapFind_tagTable (m : List (Nat × Nat)) (ois : List (Nat × Item)) (a : Nat) (hs : SortedMap m) :
    mapFind a (tagTable m ois) = (mapFind a m).or (firstTag a ois) := by
  induction ois generalizing m with
  | nil => simp [tagTable, firstTag]
  | cons x ois ih =>
    obtain ⟨o, i⟩ := x
    cases i with
    | tag a' =>
      simp only [tagTable, firstTag]
      rw [ih _ (mapInsert_sorted _ _ _ hs), mapFind_mapInsert _ _ _ _ hs]
      by_cases h : a = a'
      · subst h
        simp only [if_true]
        cases mapFind a m <;> simp
      · rw [if_neg h, if_neg (by omega)]
    | _ => simp only [tagTable, firstTag]; exact ih _ hs

theorem firstTag_mem (a o : Nat) (ois : List (Nat × Item)) (h : firstTag a ois = some o) : (o, Item.tag a) ∈ ois := by
  induction ois with
  | nil => simp [firstTag] at h
  | cons x ois ih =>
    obtain ⟨o', i⟩ := x
    cases i with
    | tag a' =>
      simp only [firstTag] at h
      split at h
      · simp_all
      · simp [ih h]
    | _ => simp only [firstTag] at h; simp [ih h]

theorem ptrTable_sorted (m : List (Nat × Nat)) (ois : List (Nat × Item)) (hs : SortedMulti m) : SortedMulti (ptrTable m ois) := by
  induction ois generalizing m with
  | nil => exact hs
  | cons x ois ih =>
    obtain ⟨o, i⟩ := x
    cases i with
    | ptr a =>
      simp only [ptrTable]; apply ih
      split
      · exact hs
      · exact multiInsert_sorted _ _ _ hs
    | _ => simp only [ptrTable]; exact ih _ hs

theorem ptrTable_mem (m : List (Nat × Nat)) (ois : List (Nat × Item)) (a o : Nat) :
    (a, o) ∈ ptrTable m ois ↔ (a, o) ∈ m ∨ ((o, Item.ptr a) ∈ ois ∧ a ≠ 0) := by
  induction ois generalizing m with
  | nil => simp [ptrTable]
  | cons x ois ih =>
    obtain ⟨o', i⟩ := x
    cases i with
    | ptr a' =>
      simp only [ptrTable, ih, List.mem_cons, Prod.mk.injEq, Item.ptr.injEq]
      split
      · rename_i h; subst h
        constructor
        · rintro (h | h)
          · exact .inl h
          · exact .inr ⟨.inr h.1, h.2⟩
        · rintro (h | ⟨h | h, h'⟩)
          · exact .inl h
          · omega
          · exact .inr ⟨h, h'⟩
      · rename_i hne
        rw [multiInsert_mem, Prod.mk.injEq]
        constructor
        · rintro ((⟨rfl, rfl⟩ | h) | h)
          · exact .inr ⟨.inl ⟨rfl, rfl⟩, hne⟩
          · exact .inl h
          · exact .inr ⟨.inr h.1, h.2⟩
        · rintro (h | ⟨⟨rfl, rfl⟩ | h, h'⟩)
          · exact .inl (.inr h)
          · exact .inl (.inl ⟨rfl, rfl⟩)
          · exact .inr ⟨h, h'⟩
    | _ => simp [ptrTable, ih]

theorem ptrTable_length_le (m : List (Nat × Nat)) (ois : List (Nat × Item)) :
    (ptrTable m ois).length ≤ m.length + (ois.filter (fun x => isRef x.2)).length := by
  induction ois generalizing m with
  | nil => simp [ptrTable]
  | cons x ois ih =>
    obtain ⟨o', i⟩ := x
    cases i with
    | ptr a' =>
      rw [List.filter_cons, if_pos (by rfl)]; simp only [ptrTable, List.length_cons]
      split
      · have := ih m; omega
      · have := ih (multiInsert a' o' m); rw [multiInsert_length] at this; omega
    | tag a' =>
      rw [List.filter_cons, if_pos (by rfl)]; simp only [ptrTable, List.length_cons]
      have := ih m; omega
    | _ => simp only [ptrTable]; rw [List.filter_cons, if_neg (by simp [isRef])]; exact ih _

theorem refs_bytes (b : Nat) (is : List Item) :
    4 * ((offsets b is).filter (fun x => isRef x.2)).length ≤ (bytesOf is).length := by
  induction is generalizing b with
  | nil => simp [offsets]
  | cons i is ih =>
    simp only [offsets, bytesOf_cons, List.length_append, List.filter_cons]
    have := ih (b + itemLen i)
    split
    · rename_i h
      have := itemLen_ref i h
      unfold itemLen at *
      simp only [List.length_cons]; omega
    · omega

/-! ### Patching -/

/-- Changing one word of the assignment. -/
def upd (σ : Nat → Nat) (o w : Nat) : Nat → Nat := fun x => if x = o then w else σ x

theorem reverseCopy_word (pre post mid : List Byte) (w : Nat) (hm : mid.length = 4) :
    reverseCopy (memImage 4 [w]) 0 (pre ++ mid ++ post) pre.length 4 1 = pre ++ bigEndian 4 w ++ post := by
  have := reverseCopy_write 4 [w] (pre ++ mid ++ post) pre.length (by simp [hm])
  simp only [List.length_singleton] at this
  rw [this]
  rw [List.append_assoc pre mid post, List.take_left, List.drop_append, List.drop_eq_nil_of_le (by omega), List.nil_append,
    List.drop_left' (by omega)]
  simp

theorem patchWord_items (σ : Nat → Nat) (is : List Item) (pre post : List Byte) (b o w : Nat) (i : Item)
    (hi : isRef i = true) (ho : (o, i) ∈ offsets b is) :
    patchWord (pre ++ bytesOf (withWords σ b is) ++ post) (pre.length + (o - b)) w =
      .ok (pre ++ bytesOf (withWords (upd σ o w) b is) ++ post) := by
  induction is generalizing b pre with
  | nil => simp [offsets] at ho
  | cons j is ih =>
    simp only [offsets, List.mem_cons, Prod.mk.injEq] at ho
    rcases ho with ⟨rfl, rfl⟩ | ho
    · -- the word is the first item
      have htail : withWords (upd σ o w) (o + itemLen i) is = withWords σ (o + itemLen i) is := by
        apply withWords_congr
        intro x a hx
        have hge : o + itemLen i ≤ x := by
          rcases hx with hx | hx <;> exact offsets_ge _ _ _ _ hx
        rw [itemLen_ref _ hi] at hge
        unfold upd; rw [if_neg (by omega)]
      unfold patchWord
      cases i with
      | ptr a =>
        simp only [withWords, setWord, bytesOf_cons, itemBytes, htail, Nat.sub_self, Nat.add_zero]
        rw [if_neg (by simp [bigEndian_length]), ← List.append_assoc, List.append_assoc, reverseCopy_word _ _ _ _ (bigEndian_length _ _)]
        simp [upd]
      | tag a =>
        simp only [withWords, setWord, bytesOf_cons, itemBytes, htail, Nat.sub_self, Nat.add_zero]
        rw [if_neg (by simp [bigEndian_length]), ← List.append_assoc, List.append_assoc, reverseCopy_word _ _ _ _ (bigEndian_length _ _)]
        simp [upd]
      | arr => simp [isRef] at hi
      | bad => simp [isRef] at hi
    · have hge := offsets_ge _ _ _ _ ho
      have hhead : setWord (upd σ o w b) j =
          (setWord (σ b) j) := by
        cases j with
        | ptr a => rw [itemLen_ptr] at hge; simp only [setWord, upd]; rw [if_neg (by omega)]
        | tag a => rw [itemLen_tag] at hge; simp only [setWord, upd]; rw [if_neg (by omega)]
        | _ => rfl
      have hlen : (itemBytes (setWord (σ b) j)).length = itemLen j := by
        cases j <;> simp [setWord, itemBytes, itemLen, bigEndian_length]
      simp only [withWords, bytesOf_cons, hhead]
      have := ih (pre ++ itemBytes (setWord (σ b) j)) (b + itemLen j) ho
      rw [List.length_append, hlen] at this
      rw [← List.append_assoc, show pre.length + (o - b) = pre.length + itemLen j + (o - (b + itemLen j)) by omega, this]
      simp only [List.append_assoc]

theorem patchGroup_items (is : List Item) (pre post : List Byte) (b w : Nat) (g : List (Nat × Nat)) (σ : Nat → Nat)
    (hb : b = pre.length)
    (hg : ∀ e ∈ g, ∃ i, isRef i = true ∧ (e.2, i) ∈ offsets b is) :
    patchGroup w g (pre ++ bytesOf (withWords σ b is) ++ post) =
      .ok (pre ++ bytesOf (withWords (g.foldl (fun σ e => upd σ e.2 w) σ) b is) ++ post) := by
  induction g generalizing σ with
  | nil => rfl
  | cons e g ih =>
    obtain ⟨i, hi, ho⟩ := hg e (by simp)
    have := patchWord_items σ is pre post b e.2 w i hi ho
    have hge := offsets_ge _ _ _ _ ho
    rw [show pre.length + (e.2 - b) = e.2 by omega] at this
    simp only [patchGroup, this, List.foldl_cons]
    exact ih _ (fun x hx => hg x (by simp [hx]))

theorem foldl_upd (g : List (Nat × Nat)) (w : Nat) (σ : Nat → Nat) (o : Nat) :
    (g.foldl (fun σ e => upd σ e.2 w) σ) o = if o ∈ g.map (·.2) then w else σ o := by
  induction g generalizing σ with
  | nil => simp
  | cons e g ih =>
    rw [List.foldl_cons, ih]
    simp only [List.map_cons, List.mem_cons]
    by_cases h : o ∈ g.map (·.2)
    · simp [h]
    · simp only [h, or_false, if_false, upd]

/-- The offsets patched by the relocation loop, for the remaining part `es` of the multimap. -/
def Patched (pa es : List (Nat × Nat)) (k o : Nat) : Prop :=
  ∃ off, mapFind k pa = some off ∧ ((k, o) ∈ es ∨ (o = off ∧ ∃ o', (k, o') ∈ es))

theorem takeWhile_sorted (e : Nat × Nat) (es : List (Nat × Nat)) (hs : SortedMulti (e :: es)) (x : Nat × Nat) :
    (x ∈ (e :: es).takeWhile (fun x => x.1 ≤ e.1) ↔ x ∈ e :: es ∧ x.1 = e.1) ∧
    (x ∈ (e :: es).dropWhile (fun x => x.1 ≤ e.1) ↔ x ∈ e :: es ∧ e.1 < x.1) := by
  have key : ∀ (k : Nat) (l : List (Nat × Nat)), SortedMulti l → (∀ y ∈ l, k ≤ y.1) →
      (x ∈ l.takeWhile (fun x => x.1 ≤ k) ↔ x ∈ l ∧ x.1 = k) ∧
      (x ∈ l.dropWhile (fun x => x.1 ≤ k) ↔ x ∈ l ∧ k < x.1) := by
    intro k l
    induction l with
    | nil => simp
    | cons y l ih =>
      intro hl hk
      have hl' := List.pairwise_cons.1 hl
      have hky := hk y (by simp)
      by_cases hy : y.1 ≤ k
      · have := ih hl'.2 (fun z hz => hk z (by simp [hz]))
        rw [List.takeWhile_cons, List.dropWhile_cons]
        simp only [hy, decide_true, if_true, List.mem_cons]
        constructor
        · rw [this.1]
          constructor
          · rintro (rfl | h)
            · exact ⟨.inl rfl, by omega⟩
            · exact ⟨.inr h.1, h.2⟩
          · rintro ⟨rfl | h, h'⟩
            · exact .inl rfl
            · exact .inr ⟨h, h'⟩
        · rw [this.2]
          constructor
          · rintro h; exact ⟨.inr h.1, h.2⟩
          · rintro ⟨rfl | h, h'⟩
            · omega
            · exact ⟨h, h'⟩
      · rw [List.takeWhile_cons, List.dropWhile_cons]
        simp only [hy, decide_false]
        constructor
        · constructor
          · simp
          · rintro ⟨h, h'⟩
            exfalso
            simp only [List.mem_cons] at h
            rcases h with rfl | h
            · omega
            · have := hl'.1 x h; omega
        · constructor
          · intro h
            refine ⟨h, ?_⟩
            simp only [Bool.false_eq_true, if_false, List.mem_cons] at h
            rcases h with rfl | h
            · omega
            · have := hl'.1 x h; omega
          · intro h; exact h.1
  apply key _ _ hs
  intro y hy
  have hs' := List.pairwise_cons.1 hs
  simp only [List.mem_cons] at hy
  rcases hy with rfl | hy
  · exact Nat.le_refl _
  · exact hs'.1 y hy

theorem dropWhile_sorted (k : Nat) (es : List (Nat × Nat)) (hs : SortedMulti es) :
    SortedMulti (es.dropWhile (fun x => x.1 ≤ k)) :=
  List.Pairwise.sublist (List.dropWhile_sublist _) hs

theorem dropWhile_length_lt (e : Nat × Nat) (es : List (Nat × Nat)) :
    ((e :: es).dropWhile (fun x => x.1 ≤ e.1)).length ≤ es.length := by
  rw [List.dropWhile_cons]
  simp only [Nat.le_refl, decide_true, if_true]
  exact (List.dropWhile_sublist _).length_le

/-- The relocation loop writes, for an injective numbering of the keys, the number of `k` at every offset
that is patched for `k`, and nothing else. -/
theorem writeRelocLoop_eq (pa : List (Nat × Nat)) (is : List Item) (pre post : List Byte) (b : Nat) (hb : b = pre.length)
    (fuel m : Nat) (es : List (Nat × Nat)) (σ : Nat → Nat)
    (hfuel : es.length ≤ fuel) (hs : SortedMulti es)
    (hpa : ∀ k off, mapFind k pa = some off → ∃ i, isRef i = true ∧ (off, i) ∈ offsets b is)
    (hpt : ∀ e ∈ es, ∃ i, isRef i = true ∧ (e.2, i) ∈ offsets b is)
    (hm : m + es.length < 2 ^ 32)
    (hfun : ∀ k k' o, Patched pa es k o → Patched pa es k' o → k = k') :
    ∃ num : Nat → Nat, (∀ k k', (∃ o, (k, o) ∈ es) → (∃ o, (k', o) ∈ es) → num k = num k' → k = k') ∧
      (∀ k, (∃ o, (k, o) ∈ es) → m ≤ num k ∧ num k < m + es.length) ∧
      ∃ τ : Nat → Nat, writeRelocLoop pa fuel m es (pre ++ bytesOf (withWords σ b is) ++ post) =
          .ok (pre ++ bytesOf (withWords τ b is) ++ post) ∧
        (∀ k o, Patched pa es k o → τ o = num k) ∧
        (∀ o, (∀ k, ¬ Patched pa es k o) → τ o = σ o) := by
  induction fuel generalizing m es σ with
  | zero =>
    cases es with
    | nil =>
      refine ⟨fun _ => 0, by simp, by simp, σ, rfl, ?_, fun _ _ => rfl⟩
      rintro k o ⟨off, _, h | ⟨_, o', h⟩⟩ <;> simp at h
    | cons e es => simp at hfuel
  | succ fuel ih =>
    cases es with
    | nil =>
      refine ⟨fun _ => 0, by simp, by simp, σ, rfl, ?_, fun _ _ => rfl⟩
      rintro k o ⟨off, _, h | ⟨_, o', h⟩⟩ <;> simp at h
    | cons e es =>
      have htw := takeWhile_sorted e es hs
      have hdl := dropWhile_length_lt e es
      generalize hgdef : (e :: es).takeWhile (fun x => x.1 ≤ e.1) = g at htw
      generalize hrdef : (e :: es).dropWhile (fun x => x.1 ≤ e.1) = r at htw hdl
      have hrs : SortedMulti r := by rw [← hrdef]; exact dropWhile_sorted _ _ hs
      have hmem : ∀ k o, (k, o) ∈ e :: es ↔ ((k, o) ∈ r ∧ e.1 < k) ∨ (k = e.1 ∧ (k, o) ∈ g) := by
        intro k o
        rw [(htw (k, o)).1, (htw (k, o)).2]
        constructor
        · intro h
          have hs' := List.pairwise_cons.1 hs
          have : e.1 ≤ k := by
            simp only [List.mem_cons] at h
            rcases h with h | h
            · rw [← h]; exact Nat.le_refl _
            · exact hs'.1 _ h
          rcases Nat.lt_or_eq_of_le this with h' | h'
          · exact .inl ⟨⟨h, h'⟩, h'⟩
          · exact .inr ⟨h'.symm, h, h'.symm⟩
        · rintro (h | h)
          · exact h.1.1
          · exact h.2.1
      have hPr : ∀ k o, Patched pa r k o → Patched pa (e :: es) k o := by
        rintro k o ⟨off, h1, h2⟩
        refine ⟨off, h1, ?_⟩
        rcases h2 with h2 | ⟨h2, o', h3⟩
        · exact .inl ((htw _).2.1 h2).1
        · exact .inr ⟨h2, o', ((htw _).2.1 h3).1⟩
      have hrk : ∀ k, (∃ o, (k, o) ∈ r) → e.1 < k := by
        rintro k ⟨o, h⟩; exact ((htw _).2.1 h).2
      have hm' : (m + 1) % 2 ^ 32 = m + 1 := by
        apply Nat.mod_eq_of_lt; simp only [List.length_cons] at hm; omega
      -- state after this group
      have hgrp : ∃ σ1 : Nat → Nat,
          writeRelocLoop pa (fuel + 1) m (e :: es) (pre ++ bytesOf (withWords σ b is) ++ post) =
            writeRelocLoop pa fuel (m + 1) r (pre ++ bytesOf (withWords σ1 b is) ++ post) ∧
          (∀ o, Patched pa (e :: es) e.1 o → σ1 o = m) ∧
          (∀ o, ¬ Patched pa (e :: es) e.1 o → σ1 o = σ o) := by
        cases hf : mapFind e.1 pa with
        | none =>
          refine ⟨σ, ?_, ?_, fun _ _ => rfl⟩
          · simp only [writeRelocLoop, hf, hrdef, hm']
          · rintro o ⟨off, h1, _⟩; rw [hf] at h1; cases h1
        | some off =>
          obtain ⟨i, hi, ho⟩ := hpa e.1 off hf
          have hge := offsets_ge _ _ _ _ ho
          have h1 := patchWord_items σ is pre post b off m i hi ho
          rw [show pre.length + (off - b) = off by omega] at h1
          have h2 := patchGroup_items is pre post b m g (upd σ off m) hb
            (fun x hx => hpt x ((htw x).1.1 hx).1)
          refine ⟨g.foldl (fun σ e => upd σ e.2 m) (upd σ off m), ?_, ?_, ?_⟩
          · simp only [writeRelocLoop, hf, hrdef, hgdef, h1, h2, hm']
          · rintro o ⟨off', h3, h4⟩
            rw [hf] at h3; cases h3
            rw [foldl_upd]
            rcases h4 with h4 | ⟨h4, _⟩
            · rw [if_pos]
              exact List.mem_map.2 ⟨(e.1, o), (htw _).1.2 ⟨h4, rfl⟩, rfl⟩
            · subst h4; simp [upd]
          · intro o hno
            rw [foldl_upd, if_neg, upd, if_neg]
            · intro h; apply hno; exact ⟨off, hf, .inr ⟨h, e.2, by simp⟩⟩
            · intro h
              obtain ⟨x, hx, rfl⟩ := List.mem_map.1 h
              apply hno
              have := (htw x).1.1 hx
              exact ⟨off, hf, .inl (by rw [← this.2]; exact this.1)⟩
      obtain ⟨σ1, hl, hp1, hn1⟩ := hgrp
      obtain ⟨num, hinj, hrange, τ, hτ, hτp, hτn⟩ := ih (m + 1) r σ1 (by simp only [List.length_cons] at hfuel; omega) hrs
        (fun x hx => hpt x ((htw x).2.1 hx).1)
        (by simp only [List.length_cons] at hm; omega)
        (fun k k' o h h' => hfun k k' o (hPr _ _ h) (hPr _ _ h'))
      have hPsplit : ∀ k o, Patched pa (e :: es) k o ↔ (k = e.1 ∧ Patched pa (e :: es) e.1 o) ∨ (e.1 < k ∧ Patched pa r k o) := by
        intro k o
        constructor
        · rintro ⟨off, h1, h2⟩
          have hk : k = e.1 ∨ e.1 < k := by
            rcases h2 with h2 | ⟨_, o', h3⟩
            · rcases (hmem _ _).1 h2 with h | h
              · exact .inr h.2
              · exact .inl h.1
            · rcases (hmem _ _).1 h3 with h | h
              · exact .inr h.2
              · exact .inl h.1
          rcases hk with rfl | hk
          · exact .inl ⟨rfl, off, h1, h2⟩
          · refine .inr ⟨hk, off, h1, ?_⟩
            rcases h2 with h2 | ⟨h2, o', h3⟩
            · rcases (hmem _ _).1 h2 with h | h
              · exact .inl h.1
              · omega
            · rcases (hmem _ _).1 h3 with h | h
              · exact .inr ⟨h2, o', h.1⟩
              · omega
        · rintro (⟨rfl, h⟩ | ⟨_, h⟩)
          · exact h
          · exact hPr _ _ h
      refine ⟨fun k => if k = e.1 then m else num k, ?_, ?_, τ, ?_, ?_, ?_⟩
      · rintro k k' ⟨o, ho⟩ ⟨o', ho'⟩ heq
        simp only at heq
        have h1 : k ≠ e.1 → ∃ o, (k, o) ∈ r := fun h => by
          rcases (hmem _ _).1 ho with h' | h'
          · exact ⟨o, h'.1⟩
          · exact absurd h'.1 h
        have h2 : k' ≠ e.1 → ∃ o, (k', o) ∈ r := fun h => by
          rcases (hmem _ _).1 ho' with h' | h'
          · exact ⟨o', h'.1⟩
          · exact absurd h'.1 h
        by_cases hk : k = e.1 <;> by_cases hk' : k' = e.1
        · rw [hk, hk']
        · simp only [hk, if_true, hk', if_false] at heq
          have := hrange _ (h2 hk'); omega
        · simp only [hk, if_false, hk', if_true] at heq
          have := hrange _ (h1 hk); omega
        · simp only [hk, if_false, hk'] at heq
          exact hinj _ _ (h1 hk) (h2 hk') heq
      · rintro k ⟨o, ho⟩
        simp only [List.length_cons]
        by_cases hk : k = e.1
        · simp only [hk, if_true]; omega
        · simp only [hk, if_false]
          rcases (hmem _ _).1 ho with h' | h'
          · have := hrange _ ⟨o, h'.1⟩; omega
          · exact absurd h'.1 hk
      · rw [hl, hτ]
      · intro k o h
        rcases (hPsplit k o).1 h with ⟨rfl, h'⟩ | ⟨hlt, h'⟩
        · simp only [if_true]
          by_cases hex : ∃ k', Patched pa r k' o
          · obtain ⟨k', hk'⟩ := hex
            have := hfun _ _ _ h' (hPr _ _ hk')
            have h3 : e.1 < k' := by
              obtain ⟨off, _, h4 | ⟨_, o', h4⟩⟩ := hk'
              · exact hrk _ ⟨_, h4⟩
              · exact hrk _ ⟨_, h4⟩
            omega
          · rw [hτn o (fun k' hk' => hex ⟨k', hk'⟩), hp1 o h']
        · simp only
          rw [if_neg (by omega)]
          exact hτp k o h'
      · intro o ho
        rw [hτn o (fun k h => ho k (hPr _ _ h)), hn1 o (ho e.1)]

/-! ### Putting it together -/

theorem mem_offsets_tag (b : Nat) (is : List Item) (a : Nat) :
    (∃ o, (o, Item.tag a) ∈ offsets b is) ↔ a ∈ tagsOf is := by
  induction is generalizing b with
  | nil => simp [offsets, tagsOf]
  | cons i is ih =>
    have := ih (b + itemLen i)
    simp only [offsets, List.mem_cons, Prod.mk.injEq]
    cases i with
    | tag a' =>
      have e : tagsOf (Item.tag a' :: is) = a' :: tagsOf is := rfl
      rw [e, List.mem_cons, ← this]
      constructor
      · rintro ⟨o, ⟨_, h⟩ | h⟩
        · cases h; exact .inl rfl
        · exact .inr ⟨o, h⟩
      · rintro (rfl | ⟨o, h⟩)
        · exact ⟨b, .inl ⟨rfl, rfl⟩⟩
        · exact ⟨o, .inr h⟩
    | arr s v => 
      have e : tagsOf (Item.arr s v :: is) = tagsOf is := rfl
      rw [e, ← this]; simp
    | ptr v => 
      have e : tagsOf (Item.ptr v :: is) = tagsOf is := rfl
      rw [e, ← this]; simp
    | bad => 
      have e : tagsOf (Item.bad :: is) = tagsOf is := rfl
      rw [e, ← this]; simp

theorem mem_offsets_ptr (b : Nat) (is : List Item) (a : Nat) :
    (∃ o, (o, Item.ptr a) ∈ offsets b is) ↔ a ∈ ptrsOf is := by
  induction is generalizing b with
  | nil => simp [offsets, ptrsOf]
  | cons i is ih =>
    have := ih (b + itemLen i)
    simp only [offsets, List.mem_cons, Prod.mk.injEq]
    cases i with
    | ptr a' =>
      have e : ptrsOf (Item.ptr a' :: is) = a' :: ptrsOf is := rfl
      rw [e, List.mem_cons, ← this]
      constructor
      · rintro ⟨o, ⟨_, h⟩ | h⟩
        · cases h; exact .inl rfl
        · exact .inr ⟨o, h⟩
      · rintro (rfl | ⟨o, h⟩)
        · exact ⟨b, .inl ⟨rfl, rfl⟩⟩
        · exact ⟨o, .inr h⟩
    | arr s v => 
      have e : ptrsOf (Item.arr s v :: is) = ptrsOf is := rfl
      rw [e, ← this]; simp
    | tag v => 
      have e : ptrsOf (Item.tag v :: is) = ptrsOf is := rfl
      rw [e, ← this]; simp
    | bad => 
      have e : ptrsOf (Item.bad :: is) = ptrsOf is := rfl
      rw [e, ← this]; simp

theorem firstTag_isSome (a : Nat) (ois : List (Nat × Item)) (o : Nat) (h : (o, Item.tag a) ∈ ois) :
    ∃ o', firstTag a ois = some o' := by
  induction ois with
  | nil => simp at h
  | cons x ois ih =>
    obtain ⟨o', i⟩ := x
    simp only [List.mem_cons, Prod.mk.injEq] at h
    cases i with
    | tag a' =>
      simp only [firstTag]
      split
      · exact ⟨_, rfl⟩
      · rename_i hne
        rcases h with ⟨_, h⟩ | h
        · cases h; exact absurd rfl hne
        · exact ih h
    | _ =>
      simp only [firstTag]
      rcases h with ⟨_, h⟩ | h
      · cases h
      · exact ih h

/-- The word of a reference before relocation. -/
def blankOf : Item → Nat
  | .ptr _ => 0
  | _ => 0xffffffff

/-- The assignment before relocation. -/
def blankWord (ois : List (Nat × Item)) (o : Nat) : Nat :=
  if ois.any (fun x => x.1 == o && (match x.2 with | .ptr _ => true | _ => false)) then 0 else 0xffffffff

theorem blank_eq_setWord (i : Item) : blank i = setWord (blankOf i) i := by
  cases i <;> rfl

theorem map_blank_aux (b : Nat) (is : List Item) (σ : Nat → Nat)
    (h : ∀ o i, (o, i) ∈ offsets b is → isRef i = true → σ o = (blankOf i)) :
    is.map blank = withWords σ b is := by
  induction is generalizing b with
  | nil => rfl
  | cons i is ih =>
    simp only [List.map_cons, withWords]
    rw [ih (b + itemLen i) (fun o j hj hr => h o j (by simp [offsets, hj]) hr)]
    congr 1
    by_cases hi : isRef i = true
    · rw [h b i (by simp [offsets]) hi, blank_eq_setWord]
    · cases i <;> simp [isRef] at hi <;> rfl

theorem blankWord_eq (b : Nat) (is : List Item) (o : Nat) (i : Item) (h : (o, i) ∈ offsets b is) (hi : isRef i = true) :
    blankWord (offsets b is) o = (blankOf i) := by
  unfold blankWord
  cases i with
  | ptr a =>
    rw [if_pos]
    · rfl
    rw [List.any_eq_true]
    exact ⟨_, h, by simp⟩
  | tag a =>
    rw [if_neg]
    · rfl
    rw [List.any_eq_true]
    rintro ⟨⟨o', j⟩, hj, hp⟩
    simp only [Bool.and_eq_true, beq_iff_eq] at hp
    cases j with
    | ptr a' =>
      have := offsets_ref_inj b is o _ _ rfl rfl h (by rw [← hp.1]; exact hj)
      cases this
    | _ => simp at hp
  | arr => simp [isRef] at hi
  | bad => simp [isRef] at hi

theorem map_blank_eq (b : Nat) (is : List Item) : is.map blank = withWords (blankWord (offsets b is)) b is :=
  map_blank_aux b is _ (fun _ _ h hi => blankWord_eq b is _ _ h hi)

/-- Word written for a pointer to `a`. -/
def ptrWord (num : Nat → Nat) (tags : List Nat) (a : Nat) : Nat := if a ≠ 0 ∧ a ∈ tags then num a else 0

theorem relocate_eq (d : WDev) (is : List Item) (pre post : List Byte) (b : Nat) (hb : b = pre.length)
    (hbuf : d.buf = pre ++ bytesOf (is.map blank) ++ post)
    (hpa : d.pointedAt = tagTable [] (offsets b is)) (hpt : d.pointerTo = ptrTable [] (offsets b is))
    (hlen : (bytesOf is).length < 2 ^ 32) :
    ∃ (num : Nat → Nat) (τ : Nat → Nat),
      d.relocate = .ok { d with buf := pre ++ bytesOf (withWords τ b is) ++ post, pointedAt := [], pointerTo := [] } ∧
      (∀ a, a ≠ 0 → a ∈ ptrsOf is → 0 < num a ∧ num a < 0xffffffff) ∧
      (∀ a a', a ≠ 0 → a' ≠ 0 → a ∈ ptrsOf is → a' ∈ ptrsOf is → num a = num a' → a = a') ∧
      (∀ o a, (o, Item.ptr a) ∈ offsets b is → τ o = ptrWord num (tagsOf is) a) ∧
      (∀ o a, (o, Item.tag a) ∈ offsets b is →
        (firstTag a (offsets b is) = some o ∧ a ≠ 0 ∧ a ∈ ptrsOf is ∧ τ o = num a) ∨
        (¬ (firstTag a (offsets b is) = some o ∧ a ≠ 0 ∧ a ∈ ptrsOf is) ∧ τ o = 0xffffffff)) := by
  have hsorted : SortedMap ([] : List (Nat × Nat)) := List.Pairwise.nil
  have hfind : ∀ k, mapFind k d.pointedAt = firstTag k (offsets b is) := by
    intro k; rw [hpa, mapFind_tagTable _ _ _ hsorted]; simp [mapFind]
  have hptmem : ∀ a o, (a, o) ∈ d.pointerTo ↔ ((o, Item.ptr a) ∈ offsets b is ∧ a ≠ 0) := by
    intro a o; rw [hpt, ptrTable_mem]; simp
  have hcount : d.pointerTo.length < 2 ^ 30 := by
    have h1 := ptrTable_length_le [] (offsets b is)
    have h2 := refs_bytes b is
    rw [hpt]
    simp only [List.length_nil, Nat.zero_add] at h1
    omega
  obtain ⟨num, hinj, hrange, τ, hloop, hτp, hτn⟩ := writeRelocLoop_eq d.pointedAt is pre post b hb d.pointerTo.length 1 d.pointerTo
    (blankWord (offsets b is)) (Nat.le_refl _) (by rw [hpt]; exact ptrTable_sorted _ _ List.Pairwise.nil)
    (by
      intro k off h
      rw [hfind] at h
      exact ⟨_, rfl, firstTag_mem _ _ _ h⟩)
    (by
      rintro ⟨a, o⟩ h
      exact ⟨_, rfl, ((hptmem a o).1 h).1⟩)
    (by omega)
    (by
      rintro k k' o ⟨off, h1, h2⟩ ⟨off', h1', h2'⟩
      rw [hfind] at h1 h1'
      have ht := firstTag_mem _ _ _ h1
      have ht' := firstTag_mem _ _ _ h1'
      rcases h2 with h2 | ⟨rfl, _, _⟩ <;> rcases h2' with h2' | ⟨rfl, _, _⟩
      · have := offsets_ref_inj b is o _ _ rfl rfl ((hptmem _ _).1 h2).1 ((hptmem _ _).1 h2').1
        cases this; rfl
      · have := offsets_ref_inj b is o _ _ rfl rfl ((hptmem _ _).1 h2).1 ht'
        cases this
      · have := offsets_ref_inj b is o _ _ rfl rfl ((hptmem _ _).1 h2').1 ht
        cases this
      · have := offsets_ref_inj b is _ _ _ rfl rfl ht ht'
        cases this; rfl)
  have hex : ∀ a, a ≠ 0 → a ∈ ptrsOf is → ∃ o, (a, o) ∈ d.pointerTo := by
    intro a h0 ha
    obtain ⟨o, ho⟩ := (mem_offsets_ptr b is a).2 ha
    exact ⟨o, (hptmem a o).2 ⟨ho, h0⟩⟩
  refine ⟨num, τ, ?_, ?_, ?_, ?_, ?_⟩
  · unfold WDev.relocate
    rw [hbuf, map_blank_eq b is, hloop]
  · intro a h0 ha
    have := hrange a (hex a h0 ha)
    omega
  · intro a a' h0 h0' ha ha'
    exact hinj a a' (hex a h0 ha) (hex a' h0' ha')
  · intro o a ho
    unfold ptrWord
    by_cases h : a ≠ 0 ∧ a ∈ tagsOf is
    · rw [if_pos h]
      apply hτp
      obtain ⟨ot, hot⟩ := (mem_offsets_tag b is a).2 h.2
      obtain ⟨o', ho'⟩ := firstTag_isSome a _ _ hot
      exact ⟨o', by rw [hfind, ho'], .inl ((hptmem a o).2 ⟨ho, h.1⟩)⟩
    · rw [if_neg h, hτn o, blankWord_eq b is o _ ho rfl]
      · rfl
      rintro k ⟨off, h1, h2⟩
      rw [hfind] at h1
      have ht := firstTag_mem _ _ _ h1
      rcases h2 with h2 | ⟨rfl, _, _⟩
      · have := (hptmem _ _).1 h2
        have he := offsets_ref_inj b is o _ _ rfl rfl this.1 ho
        cases he
        exact h ⟨this.2, (mem_offsets_tag b is _).1 ⟨_, ht⟩⟩
      · have he := offsets_ref_inj b is _ _ _ rfl rfl ht ho
        cases he
  · intro o a ho
    by_cases h : firstTag a (offsets b is) = some o ∧ a ≠ 0 ∧ a ∈ ptrsOf is
    · left
      refine ⟨h.1, h.2.1, h.2.2, ?_⟩
      apply hτp
      exact ⟨o, by rw [hfind, h.1], .inr ⟨rfl, hex a h.2.1 h.2.2⟩⟩
    · right
      refine ⟨h, ?_⟩
      rw [hτn o, blankWord_eq b is o _ ho rfl]
      · rfl
      rintro k ⟨off, h1, h2⟩
      rw [hfind] at h1
      have ht := firstTag_mem _ _ _ h1
      rcases h2 with h2 | ⟨rfl, o', h3⟩
      · have he := offsets_ref_inj b is o _ _ rfl rfl ((hptmem _ _).1 h2).1 ho
        cases he
      · have he := offsets_ref_inj b is _ _ _ rfl rfl ht ho
        cases he
        have := (hptmem _ _).1 h3
        exact h ⟨h1, this.2, (mem_offsets_ptr b is _).1 ⟨_, this.1⟩⟩

end Sio
