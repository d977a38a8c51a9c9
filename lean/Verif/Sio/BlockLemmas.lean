import Verif.Sio.RecordLemmas
import Verif.Sio.EventLemmas
/-
Reading the blocks of a record that `write_record` produced.
-/
namespace Sio
open Spec

/-- Leading items without references can be dropped. -/
theorem Numbered.drop (H M : List Item) (num τ : Nat → Nat) (hH : ∀ i ∈ H, isRef i = false)
    (h : Numbered (H ++ M) 0 num τ) : Numbered M (bytesOf H).length num τ := by
  have hoff : offsets 0 (H ++ M) = offsets 0 H ++ offsets (bytesOf H).length M := by rw [offsets_append, Nat.zero_add]
  have hnoref : ∀ (b : Nat) (l : List Item), (∀ i ∈ l, isRef i = false) → (∀ x ∈ offsets b l, isRef x.2 = false) := by
    intro b l hl
    induction l generalizing b with
    | nil => intro x hx; cases hx
    | cons i l ih =>
      intro x hx
      simp only [offsets, List.mem_cons] at hx
      rcases hx with rfl | hx
      · exact hl i (by simp)
      · exact ih _ (fun j hj => hl j (by simp [hj])) x hx
  have hH' := hnoref 0 H hH
  have ht : tagsOf (H ++ M) = tagsOf M := by
    rw [tagsOf_append]
    have : tagsOf H = [] := by
      unfold tagsOf
      rw [List.filterMap_eq_nil_iff]
      intro i hi
      have := hH i hi
      cases i <;> simp_all [isRef]
    rw [this, List.nil_append]
  have hp : ptrsOf (H ++ M) = ptrsOf M := by
    rw [ptrsOf_append]
    have : ptrsOf H = [] := by
      unfold ptrsOf
      rw [List.filterMap_eq_nil_iff]
      intro i hi
      have := hH i hi
      cases i <;> simp_all [isRef]
    rw [this, List.nil_append]
  have hft : ∀ a, firstTag a (offsets 0 (H ++ M)) = firstTag a (offsets (bytesOf H).length M) := by
    intro a
    rw [hoff]
    generalize offsets (bytesOf H).length M = R
    generalize offsets 0 H = L at hH'
    induction L with
    | nil => rfl
    | cons x L ih =>
      obtain ⟨o, i⟩ := x
      have h1 := hH' (o, i) (by simp)
      have h2 := ih (fun y hy => hH' y (by simp [hy]))
      cases i with
      | tag a' => simp [isRef] at h1
      | _ => simpa [firstTag] using h2
  have hmem : ∀ o i, isRef i = true → ((o, i) ∈ offsets (bytesOf H).length M → (o, i) ∈ offsets 0 (H ++ M)) := by
    intro o i _ h; rw [hoff]; exact List.mem_append_right _ h
  constructor
  · rw [← hp]; exact h.range
  · rw [← hp]; exact h.inj
  · intro o a ho; rw [← ht]; exact h.ptr o a (hmem o _ rfl ho)
  · intro o a ho; rw [← hft, ← hp]; exact h.tag o a (hmem o _ rfl ho)

/-- Tag words, given the addresses seen before. -/
def firstWords (num : Nat → Nat) (ptrs : List Nat) : List Nat → List Nat → List Nat
  | _, [] => []
  | seen, a :: ts => (if a ∉ seen ∧ a ≠ 0 ∧ a ∈ ptrs then num a else 0xffffffff) :: firstWords num ptrs (a :: seen) ts

theorem firstWords_congr (num : Nat → Nat) (ptrs seen seen' ts : List Nat) (h : ∀ a, a ∈ seen ↔ a ∈ seen') :
    firstWords num ptrs seen ts = firstWords num ptrs seen' ts := by
  induction ts generalizing seen seen' with
  | nil => rfl
  | cons a ts ih =>
    simp only [firstWords, h a]
    rw [ih (a :: seen) (a :: seen') (by intro x; simp [h x])]

theorem firstTag_append_some (a : Nat) (i : Item) (b : Nat) (A B : List Item) (hi : i = .tag a) :
    firstTag a (offsets b (A ++ i :: B)) = some (b + (bytesOf A).length) ↔ a ∉ tagsOf A := by
  subst hi
  have hoff : offsets b (A ++ .tag a :: B) = offsets b A ++ (b + (bytesOf A).length, .tag a) :: offsets (b + (bytesOf A).length + 4) B := by
    rw [offsets_append]; simp only [offsets]; rw [itemLen_tag]
  rw [hoff]
  constructor
  · intro h hmem
    obtain ⟨o', ho'⟩ := (mem_offsets_tag b A a).2 hmem
    obtain ⟨o'', ho''⟩ := firstTag_isSome a (offsets b A) o' ho'
    have e : firstTag a (offsets b A ++ (b + (bytesOf A).length, .tag a) :: offsets (b + (bytesOf A).length + 4) B) = some o'' := by
      clear h ho'
      generalize offsets b A = L at ho''
      induction L with
      | nil => simp [firstTag] at ho''
      | cons x L ih =>
        obtain ⟨p, j⟩ := x
        cases j with
        | tag a' =>
          simp only [List.cons_append, firstTag] at ho'' ⊢
          split
          · rename_i h; rw [if_pos h] at ho''; exact ho''
          · rename_i h; rw [if_neg h] at ho''; exact ih ho''
        | _ => simp only [List.cons_append, firstTag] at ho'' ⊢; exact ih ho''
    rw [e] at h
    cases h
    have h1 := firstTag_mem _ _ _ ho''
    have h2 := offsets_le _ _ _ _ h1
    rw [itemLen_tag] at h2
    omega
  · intro hmem
    have hnone : ∀ o', (o', Item.tag a) ∉ offsets b A := fun o' h => hmem ((mem_offsets_tag b A a).1 ⟨o', h⟩)
    generalize offsets b A = L at hnone
    induction L with
    | nil => simp [firstTag]
    | cons x L ih =>
      obtain ⟨p, j⟩ := x
      have ih' := ih (fun o' h => hnone o' (by simp [h]))
      cases j with
      | tag a' =>
        simp only [List.cons_append, firstTag]
        rw [if_neg]
        · exact ih'
        · rintro rfl; exact hnone p (by simp)
      | _ => simp only [List.cons_append, firstTag]; exact ih'

theorem tagWords_eq (is : List Item) (b : Nat) (num τ : Nat → Nat) (hnum : Numbered is b num τ) :
    tagWords τ b is = firstWords num (ptrsOf is) [] (tagsOf is) := by
  have key : ∀ (B A : List Item), is = A ++ B → tagWords τ (b + (bytesOf A).length) B = firstWords num (ptrsOf is) (tagsOf A) (tagsOf B) := by
    intro B
    induction B with
    | nil => intro A _; rfl
    | cons i B ih =>
      intro A hA
      have ih' := ih (A ++ [i]) (by simp [hA])
      rw [bytesOf_append, List.length_append, bytesOf_cons, bytesOf_nil, List.append_nil, ← Nat.add_assoc] at ih'
      cases i with
      | tag a =>
        have e : tagsOf (Item.tag a :: B) = a :: tagsOf B := rfl
        rw [e]
        simp only [tagWords, firstWords]
        have hw : τ (b + (bytesOf A).length) % 2 ^ 32 = if a ∉ tagsOf A ∧ a ≠ 0 ∧ a ∈ ptrsOf is then num a else 0xffffffff := by
          have hmem : (b + (bytesOf A).length, Item.tag a) ∈ offsets b is := by
            rw [hA, offsets_append]; simp [offsets]
          have hfirst := firstTag_append_some a (.tag a) b A B rfl
          rw [← hA] at hfirst
          rcases hnum.tag _ _ hmem with ⟨h1, h2, h3, h4⟩ | ⟨h1, h4⟩
          · rw [if_pos ⟨hfirst.1 h1, h2, h3⟩, h4]
            have := hnum.range a h2 h3
            exact Nat.mod_eq_of_lt (by omega)
          · rw [if_neg, h4]
            rintro ⟨h5, h6, h7⟩
            exact h1 ⟨hfirst.2 h5, h6, h7⟩
        rw [hw]
        congr 1
        rw [show itemLen (Item.tag a) = (itemBytes (Item.tag a)).length from rfl, ih']
        apply firstWords_congr
        intro x
        rw [tagsOf_append]
        have : tagsOf [Item.tag a] = [a] := rfl
        rw [this]; simp [or_comm]
      | arr s v =>
        have e : tagsOf (Item.arr s v :: B) = tagsOf B := rfl
        have e2 : tagsOf (A ++ [Item.arr s v]) = tagsOf A := by rw [tagsOf_append]; simp [tagsOf]
        rw [e2] at ih'
        rw [e]; exact ih'
      | ptr s =>
        have e : tagsOf (Item.ptr s :: B) = tagsOf B := rfl
        have e2 : tagsOf (A ++ [Item.ptr s]) = tagsOf A := by rw [tagsOf_append]; simp [tagsOf]
        rw [e2] at ih'
        rw [e]; exact ih'
      | bad =>
        have e : tagsOf (Item.bad :: B) = tagsOf B := rfl
        have e2 : tagsOf (A ++ [Item.bad]) = tagsOf A := by rw [tagsOf_append]; simp [tagsOf]
        rw [e2] at ih'
        rw [e]; exact ih'
  have := key is [] rfl
  rw [bytesOf_nil] at this
  exact this

/-- Tags registered by the reader. -/
def regPairs : List Nat → List (Nat × Option Nat) → List (Nat × Nat)
  | w :: ws, (_, some o) :: os => (w, o) :: regPairs ws os
  | _ :: ws, (_, none) :: os => regPairs ws os
  | _, _ => []

theorem regPairs_append (w1 w2 : List Nat) (o1 o2 : List (Nat × Option Nat)) (h : w1.length = o1.length) :
    regPairs (w1 ++ w2) (o1 ++ o2) = regPairs w1 o1 ++ regPairs w2 o2 := by
  induction w1 generalizing o1 with
  | nil =>
    cases o1 with
    | nil => simp [regPairs]
    | cons => simp at h
  | cons w w1 ih =>
    cases o1 with
    | nil => simp at h
    | cons x o1 =>
      obtain ⟨a, o⟩ := x
      have := ih o1 (by simpa using h)
      cases o <;> simp [regPairs, this]

theorem regPairs_some (ws : List Nat) (rs : List (Nat × Nat)) :
    regPairs ws (rs.map (fun x => (x.1, some x.2))) = ws.zip (rs.map (·.2)) := by
  induction ws generalizing rs with
  | nil => cases rs <;> simp [regPairs]
  | cons w ws ih => cases rs <;> simp [regPairs, ih]

theorem regPairs_none (ws : List Nat) (ts : List Nat) : regPairs ws (ts.map (·, none)) = [] := by
  induction ws generalizing ts with
  | nil => cases ts <;> simp [regPairs]
  | cons w ws ih => cases ts <;> simp [regPairs, ih]

theorem mapFind_regPairs (num : Nat → Nat) (ptrs seen : List Nat) (os : List (Nat × Option Nat)) (a : Nat)
    (ha0 : a ≠ 0) (hap : a ∈ ptrs) (hrange : ∀ a, a ≠ 0 → a ∈ ptrs → num a < 0xffffffff)
    (hinj : ∀ a a', a ≠ 0 → a' ≠ 0 → a ∈ ptrs → a' ∈ ptrs → num a = num a' → a = a') :
    mapFind (num a) (regPairs (firstWords num ptrs seen (os.map (·.1))) os) =
      if a ∈ seen then none else (os.find? (fun x => x.1 == a)).bind (·.2) := by
  induction os generalizing seen with
  | nil => simp [firstWords, regPairs, mapFind]
  | cons x os ih =>
    obtain ⟨a', o⟩ := x
    simp only [List.map_cons, firstWords]
    have ih' := ih (a' :: seen)
    have hlt := hrange a ha0 hap
    by_cases haa : a' = a
    · subst haa
      by_cases hs : a' ∈ seen
      · simp only [hs, not_true_eq_false, false_and, if_false, if_true]
        cases o with
        | none => simp only [regPairs]; rw [ih', if_pos (by simp)]
        | some v => simp only [regPairs, mapFind_cons]; rw [if_neg (by omega), ih', if_pos (by simp)]
      · simp only [hs, not_false_eq_true, ha0, ne_eq, hap, and_self, if_true, if_false]
        cases o with
        | none => simp only [regPairs]; rw [ih', if_pos (by simp)]; simp
        | some v => simp only [regPairs, mapFind_cons]; simp
    · have hne : ∀ w, w = (if a' ∉ seen ∧ a' ≠ 0 ∧ a' ∈ ptrs then num a' else 0xffffffff) → w ≠ num a := by
        rintro w rfl
        split
        · rename_i h
          intro h'
          exact haa (hinj _ _ h.2.1 ha0 h.2.2 hap h')
        · omega
      have hrest : mapFind (num a) (regPairs (firstWords num ptrs (a' :: seen) (os.map (·.1))) os) =
          if a ∈ seen then none else (os.find? (fun x => x.1 == a)).bind (·.2) := by
        rw [ih']
        have : (a ∈ a' :: seen) ↔ a ∈ seen := by simp [Ne.symm haa]
        simp only [this]
      have hf : ((a', o) :: os).find? (fun x => x.1 == a) = os.find? (fun x => x.1 == a) := by
        rw [List.find?_cons]; rw [show ((a', o).1 == a) = false by simpa using haa]
      rw [hf, ← hrest]
      cases o with
      | none => rfl
      | some v => simp only [regPairs, mapFind_cons]; rw [if_neg (hne _ rfl)]

/-- What relocation on read makes of the words written for pointers. -/
theorem relocWord_target (is : List Item) (b : Nat) (num τ : Nat → Nat) (hnum : Numbered is b num τ)
    (os : List (Nat × Option Nat)) (hos : os.map (·.1) = tagsOf is) (a : Nat) (ha : a ∈ ptrsOf is) :
    relocWord (regTags [] (regPairs (tagWords τ b is) os)) (ptrWord num (tagsOf is) a) = target os a := by
  unfold ptrWord target relocWord
  by_cases ha0 : a = 0
  · simp [ha0]
  · by_cases hat : a ∈ tagsOf is
    · have hr := hnum.range a ha0 ha
      have hw : (if a ≠ 0 ∧ a ∈ tagsOf is then num a else 0) = num a := if_pos ⟨ha0, hat⟩
      rw [hw, if_neg (show ¬ num a = 0 by omega), if_neg ha0, mapFind_regTags _ _ _ List.Pairwise.nil (by omega),
        tagWords_eq is b num τ hnum, ← hos]
      rw [mapFind_regPairs num _ _ os a ha0 ha (fun x h1 h2 => (hnum.range x h1 h2).2) hnum.inj]
      simp only [List.not_mem_nil, if_false]
      cases hf : os.find? (fun x => x.1 == a) with
      | none => rfl
      | some x => obtain ⟨p, q⟩ := x; cases q <;> rfl
    · have hw : (if a ≠ 0 ∧ a ∈ tagsOf is then num a else 0) = 0 := if_neg (fun h => hat h.2)
      rw [hw, if_neg ha0, if_pos rfl]
      have : os.find? (fun x => x.1 == a) = none := by
        rw [List.find?_eq_none]
        intro x hx
        have : x.1 ∈ tagsOf is := by rw [← hos]; exact List.mem_map_of_mem hx
        simp only [beq_iff_eq]
        rintro rfl; exact hat this
      rw [this]

/-! ### extract_block and read_blocks -/

theorem runI_blockHeader (φ : Nat → Nat) (b : WBlock) (hl : blockLen b < 2 ^ 32) (hn : b.name.length < 2 ^ 32)
    (is : List Item) (n : Nat) (rg : List (Nat × Nat)) :
    blockHeader.runI φ ⟨hdrItems b ++ is, n, rg⟩ = some ((blockLen b, b.version, b.name), ⟨is, n, rg⟩) := by
  have hw : ∀ k, k < 2 ^ 32 → [word k] = w32 (BitVec.ofNat 32 k) := by
    intro k hk; simp [word, w32]; omega
  have e : hdrItems b ++ is = w32 (BitVec.ofNat 32 (blockLen b)) ++ (w32 (BitVec.ofNat 32 0xdeadbeef) ++ (w32 b.version ++
      (w32 (BitVec.ofNat 32 b.name.length) ++ (w8s b.name ++ is)))) := by
    rw [← hw _ hl, ← hw _ hn, ← hw _ (by decide)]
    simp [hdrItems, w32, w8s, word, chars]
  rw [e]
  unfold blockHeader
  rw [runI_bind, runI_r32]; simp only [Option.bind_some]
  rw [runI_bind, runI_r32]; simp only [Option.bind_some]
  rw [if_neg (by decide)]
  rw [runI_bind, runI_r32]; simp only [Option.bind_some]
  rw [runI_bind, runI_r32]; simp only [Option.bind_some]
  rw [runI_bind, runI_r8s _ _ _ (by simp; omega)]; simp only [Option.bind_some]
  rw [runI_pure]
  simp
  omega

theorem fits_hdr (b : WBlock) (hb : blockFits b) : ∀ i ∈ hdrItems b, fits i := by
  intro i hi
  simp only [hdrItems, List.mem_cons, List.not_mem_nil, or_false] at hi
  rcases hi with rfl | rfl | rfl | rfl | rfl
  · exact fits_word _
  · exact fits_word _
  · exact fits_word _
  · exact fits_word _
  · exact fits_chars _ hb.1

theorem hdrItems_length (b : WBlock) : (bytesOf (hdrItems b)).length = blockHeaderLen b := by
  rw [bytesOf_length]
  simp only [hdrItems, List.map_cons, List.map_nil, List.sum_cons, List.sum_nil, itemLen_word, itemLen_chars, blockHeaderLen]
  omega

theorem withWords_hdr (τ : Nat → Nat) (base : Nat) (b : WBlock) : withWords τ base (hdrItems b) = hdrItems b := rfl

theorem withWords_block (τ : Nat → Nat) (base : Nat) (b : WBlock) :
    withWords τ base (blockItems b) = hdrItems b ++ withWords τ (base + blockHeaderLen b) b.items := by
  have : blockItems b = hdrItems b ++ b.items := rfl
  rw [this, withWords_append, withWords_hdr, hdrItems_length]

theorem extractBlock_eq (pre post : List Byte) (τ : Nat → Nat) (base : Nat) (b : WBlock) (hb : blockFits b)
    (hlen : pre.length + blockLen b < 2 ^ 32) :
    extractBlock (pre ++ bytesOf (withWords τ base (blockItems b)) ++ post) pre.length =
      .ok ({ recordStart := pre.length, recordEnd := pre.length + blockLen b, headerLength := blockHeaderLen b,
             version := b.version, dataLength := (bytesOf b.items).length, name := b.name },
           bytesOf (withWords τ base (blockItems b))) := by
  have hl : (bytesOf (withWords τ base (blockItems b))).length = blockLen b := by rw [withWords_bytes_length, blockItems_length]
  have hpos : 16 ≤ blockHeaderLen b := by unfold blockHeaderLen; omega
  have hbl : blockLen b = blockHeaderLen b + (bytesOf b.items).length := rfl
  unfold extractBlock
  rw [if_neg (by simp only [List.length_append, hl]; omega)]
  have hdrop : (pre ++ bytesOf (withWords τ base (blockItems b)) ++ post).drop pre.length =
      bytesOf (withWords τ base (blockItems b)) ++ post := by rw [List.append_assoc, List.drop_left]
  rw [hdrop]
  obtain ⟨used, nr, e1, e2, e3, e4⟩ := runI_run (fun _ => 0) blockHeader _ _ _ (runI_blockHeader (fun _ => 0) b hb.2.2 (by have := hb.1; omega) [] 1 [])
  simp only [List.append_nil] at e1
  obtain ⟨d', f1, f2, f3, f4, f5, f6⟩ := e4 { buf := bytesOf (withWords τ base (blockItems b)) ++ post } []
    (bytesOf (withWords τ (base + blockHeaderLen b) b.items) ++ post) base τ
    (by rw [withWords_block, bytesOf_append, List.append_nil, withWords_hdr]; simp) rfl rfl
    (by
      intro o x hx
      simp only [List.append_nil] at hx
      simp [hdrItems, offsets, word, chars] at hx)
    (by rw [List.append_nil]; exact fits_hdr b hb)
  simp only [f1, bind, Except.bind]
  have hcur : d'.cur = blockHeaderLen b := by rw [f3, ← e1, hdrItems_length]; simp
  have hseek : d'.seek (blockLen b) = .ok { d' with cur := blockLen b } := by
    unfold RDev.seek
    rw [f2, if_neg]
    simp only [List.length_append, hl]; omega
  simp only [hseek, hcur]
  have hmod : blockHeaderLen b % 2 ^ 32 = blockHeaderLen b := Nat.mod_eq_of_lt (by omega)
  rw [if_neg (by simp only [List.length_append, hl]; omega), hmod, Nat.mod_eq_of_lt (show pre.length < 2 ^ 32 by omega), Nat.mod_eq_of_lt hlen]
  simp only [pure, Except.pure]
  rw [List.take_left' hl]
  congr 3
  rw [hbl, show blockHeaderLen b + (bytesOf b.items).length + 2 ^ 32 - blockHeaderLen b = (bytesOf b.items).length + 2 ^ 32 by omega,
    Nat.add_mod_right]
  exact Nat.mod_eq_of_lt (by omega)

theorem tagWords_length (τ : Nat → Nat) (b : Nat) (is : List Item) : (tagWords τ b is).length = (tagsOf is).length := by
  induction is generalizing b with
  | nil => rfl
  | cons i is ih =>
    rw [tagsOf_cons]
    cases i <;> simp [tagWords, ih] <;> simp [tagsOf]
    omega

theorem decodeAll_objects {α : Type} (φ : Nat → Nat) (decs : List (RBlock α)) (bs : List WBlock) (n : Nat) (r : Decoded α)
    (h : decodeAll φ decs bs n = some r) : r.objects.map (·.1) = tagsOf (blocksItems bs) := by
  induction bs generalizing n r with
  | nil => cases h; rfl
  | cons b bs ih =>
    have hb : tagsOf (blocksItems (b :: bs)) = tagsOf b.items ++ tagsOf (blocksItems bs) := by
      have : blocksItems (b :: bs) = hdrItems b ++ b.items ++ blocksItems bs := rfl
      rw [this, tagsOf_append, tagsOf_append]; rfl
    rw [hb]
    simp only [decodeAll] at h
    split at h
    · rw [Option.map_eq_some_iff] at h
      obtain ⟨r', h1, rfl⟩ := h
      have := ih n r' h1
      simp only [List.map_append, this, List.map_map]
      congr 1
      rw [show ((fun x : Nat × Option Nat => x.1) ∘ fun x => (x, none)) = id from rfl, List.map_id]
    · split at h
      · cases h
      · rename_i a s hs
        rw [Option.map_eq_some_iff] at h
        obtain ⟨r', h1, rfl⟩ := h
        have := ih _ r' h1
        obtain ⟨used, nr, e1, e2, e3, _⟩ := runI_run φ _ _ _ _ hs
        simp only [List.map_append, this, List.map_map]
        congr 1
        simp only [List.nil_append] at e2
        simp only at e1
        rw [e1, tagsOf_append, e2, ← e3]
        congr 1
        rw [show ((fun x : Nat × Option Nat => x.1) ∘ fun x => (x, none)) = id from rfl, List.map_id]

theorem MemOk_congr (base : Nat) (d d' : RDev) (h : MemOk base d) (h1 : d'.pointerTo = d.pointerTo) (h2 : d'.mem = d.mem) : MemOk base d' := by
  unfold MemOk; rw [h1, h2]; exact h

/-- The reading loop on the bytes of written blocks. -/
theorem readBlocksLoop_eq {α : Type} (φ τ : Nat → Nat) (decs : List (RBlock α)) (bs : List WBlock) (pre : List Byte) (base n : Nat)
    (r : Decoded α) (dev : RDev) (fuel : Nat)
    (hσ : ∀ o x, (o, Item.ptr x) ∈ offsets base (blocksItems bs) → τ o % 2 ^ 32 = φ x)
    (hdec : decodeAll φ decs bs n = some r) (hfit : ∀ b ∈ bs, blockFits b) (hlen : pre.length + dataLen bs < 2 ^ 32)
    (hfuel : bs.length ≤ fuel) (hn : dev.next = n) (hmem : MemOk 0 dev) :
    ∃ dev', readBlocksLoop (pre ++ bytesOf (withWords τ base (blocksItems bs))) decs fuel pre.length dev = .ok (r.results, dev') ∧
      dev'.next = r.next ∧ dev'.mem = dev.mem ++ r.slots.map φ ∧ MemOk 0 dev' ∧
      dev'.pointedAt = regTags dev.pointedAt (regPairs (tagWords τ base (blocksItems bs)) r.objects) := by
  induction bs generalizing pre base n r dev fuel with
  | nil =>
    cases hdec
    refine ⟨dev, ?_, hn, by simp, hmem, rfl⟩
    have : readBlocksLoop (pre ++ bytesOf (withWords τ base (blocksItems []))) decs fuel pre.length dev = .ok ([], dev) := by
      unfold readBlocksLoop
      rw [if_pos (by simp [blocksItems, withWords, bytesOf_nil])]
    exact this
  | cons b bs ih =>
    have hbf := hfit b (by simp)
    have hsplit : blocksItems (b :: bs) = blockItems b ++ blocksItems bs := rfl
    have hdl : dataLen (b :: bs) = blockLen b + dataLen bs := by
      unfold dataLen; rw [hsplit, bytesOf_append, List.length_append, blockItems_length]
    have hpos : 16 ≤ blockLen b := by unfold blockLen blockHeaderLen; omega
    have hbytes : bytesOf (withWords τ base (blocksItems (b :: bs))) =
        bytesOf (withWords τ base (blockItems b)) ++ bytesOf (withWords τ (base + blockLen b) (blocksItems bs)) := by
      rw [hsplit, withWords_append, bytesOf_append, blockItems_length]
    have hbl : (bytesOf (withWords τ base (blockItems b))).length = blockLen b := by rw [withWords_bytes_length, blockItems_length]
    have htw : tagWords τ base (blocksItems (b :: bs)) =
        tagWords τ (base + blockHeaderLen b) b.items ++ tagWords τ (base + blockLen b) (blocksItems bs) := by
      rw [hsplit, tagWords_append, blockItems_length, show blockItems b = hdrItems b ++ b.items from rfl, tagWords_append, hdrItems_length]
      rfl
    have hex := extractBlock_eq pre (bytesOf (withWords τ (base + blockLen b) (blocksItems bs))) τ base b hbf (by omega)
    rw [List.append_assoc] at hex
    have hoffb : ∀ x, x ∈ offsets (base + blockHeaderLen b) b.items → x ∈ offsets base (blocksItems (b :: bs)) := by
      intro x hx
      rw [hsplit, offsets_append, show blockItems b = hdrItems b ++ b.items from rfl, offsets_append, hdrItems_length]
      simp [hx]
    have hoffr : ∀ x, x ∈ offsets (base + blockLen b) (blocksItems bs) → x ∈ offsets base (blocksItems (b :: bs)) := by
      intro x hx
      rw [hsplit, offsets_append, blockItems_length]
      simp [hx]
    have hnext : pre.length + blockLen b = (pre ++ bytesOf (withWords τ base (blockItems b))).length := by simp [hbl]
    cases fuel with
    | zero => simp at hfuel
    | succ fuel =>
      have hstep : ∀ dev, readBlocksLoop (pre ++ bytesOf (withWords τ base (blocksItems (b :: bs)))) decs (fuel + 1) pre.length dev =
          (match decs.find? (fun d => d.name == b.name) with
            | none => readBlocksLoop (pre ++ bytesOf (withWords τ base (blocksItems (b :: bs)))) decs fuel (pre.length + blockLen b) dev
            | some d => do
              let dev := { dev with buf := bytesOf (withWords τ base (blockItems b)) }
              let dev ← dev.seek (blockHeaderLen b)
              let (a, dev) ← rethrowing ((d.read b.version).run dev)
              let (rest, dev) ← readBlocksLoop (pre ++ bytesOf (withWords τ base (blocksItems (b :: bs)))) decs fuel (pre.length + blockLen b) dev
              return ((b.name, a) :: rest, dev)) := by
        intro dev
        conv => lhs; unfold readBlocksLoop
        rw [if_neg (by rw [hbytes]; simp only [List.length_append, hbl]; omega)]
        rw [hbytes, hex]
        rfl
      simp only [decodeAll] at hdec
      split at hdec
      · rename_i hfind
        rw [Option.map_eq_some_iff] at hdec
        obtain ⟨r', hr', rfl⟩ := hdec
        obtain ⟨dev', g1, g2, g3, g4, g5⟩ := ih (pre ++ bytesOf (withWords τ base (blockItems b))) (base + blockLen b) n r' dev fuel
          (fun o x hx => hσ o x (hoffr _ hx)) hr' (fun b' hb' => hfit b' (by simp [hb'])) (by simp only [List.length_append, hbl]; omega)
          (by simpa using hfuel) hn hmem
        refine ⟨dev', ?_, g2, g3, g4, ?_⟩
        · rw [hstep, hfind]
          simp only
          rw [hbytes, ← List.append_assoc, hnext]
          exact g1
        · rw [g5, htw, regPairs_append _ _ _ _ (by rw [tagWords_length]; simp), regPairs_none]
          rfl
      · rename_i d hfind
        split at hdec
        · cases hdec
        · rename_i a s hs
          rw [Option.map_eq_some_iff] at hdec
          obtain ⟨r', hr', rfl⟩ := hdec
          obtain ⟨used, nr, e1, e2, e3, e4⟩ := runI_run φ _ _ _ _ hs
          simp only [List.nil_append] at e2
          simp only at e1
          obtain ⟨d1, f1, f2, f3, f4, f5, f6⟩ := e4
            { dev with buf := bytesOf (withWords τ base (blockItems b)), cur := blockHeaderLen b } (bytesOf (hdrItems b)) []
            (base + blockHeaderLen b) τ (by rw [withWords_block, bytesOf_append]; simp) (by rw [hdrItems_length]) hn
            (fun o x hx => hσ o x (hoffb _ hx)) hbf.2.1
          have hm1 : MemOk 0 d1 := run_MemOk 0 _ _ _ _ f1 (MemOk_congr 0 dev _ hmem rfl rfl)
          obtain ⟨dev', g1, g2, g3, g4, g5⟩ := ih (pre ++ bytesOf (withWords τ base (blockItems b))) (base + blockLen b) s.next r' d1 fuel
            (fun o x hx => hσ o x (hoffr _ hx)) hr' (fun b' hb' => hfit b' (by simp [hb'])) (by simp only [List.length_append, hbl]; omega)
            (by simpa using hfuel) f4 hm1
          refine ⟨dev', ?_, g2, ?_, g4, ?_⟩
          · rw [hstep, hfind]
            simp only [bind, Except.bind]
            have hseek : RDev.seek { dev with buf := bytesOf (withWords τ base (blockItems b)) } (blockHeaderLen b) =
                .ok { dev with buf := bytesOf (withWords τ base (blockItems b)), cur := blockHeaderLen b } := by
              unfold RDev.seek
              rw [if_neg]
              simp only [hbl, blockLen]; omega
            rw [hseek]
            simp only [f1, rethrowing]
            rw [hbytes, ← List.append_assoc, hnext, g1]
            rfl
          · rw [g3, f5, List.map_append, List.append_assoc]
            congr 3
            rw [e1, List.length_append, Nat.add_sub_cancel, List.take_left]
          · rw [g5, f6, ← regTags_append, htw]
            congr 1
            rw [regPairs_append _ _ _ _ (by
              rw [tagWords_length, e1, tagsOf_append]
              simp only [List.length_append, List.length_map, ← e3, e2])]
            congr 1
            rw [e1, tagWords_append, regPairs_append _ _ _ _ (by
              rw [tagWords_length, ← e3]; simp [e2]), regPairs_none, List.append_nil, regPairs_some, e2]

/-- Numbering of the data part of a record. -/
theorem Numbered.data (name : List Byte) (opts : W32) (bs : List WBlock) (num τ : Nat → Nat)
    (h : Numbered (recordItems name opts bs) 0 num τ) : Numbered (blocksItems bs) (headerLen name) num τ := by
  have := Numbered.drop (headerItems name opts (dataLen bs) (dataLen bs)) (blocksItems bs) num τ
    (by intro i hi; simp only [headerItems, List.mem_cons, List.not_mem_nil, or_false] at hi
        rcases hi with rfl | rfl | rfl | rfl | rfl | rfl | rfl <;> rfl) h
  have hl : (bytesOf (headerItems name opts (dataLen bs) (dataLen bs))).length = headerLen name := by
    rw [bytesOf_length]
    simp only [headerItems, List.map_cons, List.map_nil, List.sum_cons, List.sum_nil, itemLen_word, itemLen_chars, headerLen]
    omega
  rw [hl] at this
  exact this

theorem readBlocks_eq {α : Type} (decs : List (RBlock α)) (bs : List WBlock) (base n : Nat) (num τ : Nat → Nat)
    (r : Decoded α) (hnum : Numbered (blocksItems bs) base num τ)
    (hdec : decodeAll (ptrWord num (tagsOf (blocksItems bs))) decs bs n = some r)
    (hfit : ∀ b ∈ bs, blockFits b) (hlen : dataLen bs < 2 ^ 32) :
    ∃ ρ dev', readBlocks (bytesOf (withWords τ base (blocksItems bs))) decs n = .ok (r.results, ρ, dev') ∧
      (∀ a ∈ ptrsOf (blocksItems bs), ρ (ptrWord num (tagsOf (blocksItems bs)) a) = target r.objects a) ∧
      dev'.mem = r.slots.map (fun a => ρ (ptrWord num (tagsOf (blocksItems bs)) a)) ∧ dev'.next = r.next := by
  have hbl : (bytesOf (withWords τ base (blocksItems bs))).length = dataLen bs := by rw [withWords_bytes_length]; rfl
  have hcount : bs.length ≤ dataLen bs := by
    clear hnum hdec hlen hbl hfit
    induction bs with
    | nil => simp
    | cons b bs ih =>
      have : dataLen (b :: bs) = blockLen b + dataLen bs := by
        unfold dataLen; rw [show blocksItems (b :: bs) = blockItems b ++ blocksItems bs from rfl, bytesOf_append, List.length_append, blockItems_length]
      have h2 : 16 ≤ blockLen b := by unfold blockLen blockHeaderLen; omega
      simp only [List.length_cons]; omega
  have hp32 : ∀ a ∈ ptrsOf (blocksItems bs), ptrWord num (tagsOf (blocksItems bs)) a < 2 ^ 32 := by
    intro a ha
    unfold ptrWord
    split
    · rename_i h; have := hnum.range a h.1 ha; omega
    · omega
  obtain ⟨dev', g1, g2, g3, g4, g5⟩ := readBlocksLoop_eq (ptrWord num (tagsOf (blocksItems bs))) τ decs bs [] base n r
    { buf := [], next := n } ((bytesOf (withWords τ base (blocksItems bs))).length + 1)
    (by
      intro o x hx
      rw [hnum.ptr o x hx]
      apply Nat.mod_eq_of_lt
      apply hp32
      exact (mem_offsets_ptr base (blocksItems bs) x).1 ⟨o, hx⟩) hdec hfit (by simpa using hlen) (by omega) rfl (by simp [MemOk, SortedMulti])
  simp only [List.nil_append, List.length_nil] at g1 g3
  have hre := RDev.relocate_eq dev' g4
  refine ⟨fun w => if w = 0 then 0 else (mapFind w dev'.pointedAt).getD 0,
    { dev' with mem := dev'.mem.map (relocWord dev'.pointedAt), pointerTo := [], pointedAt := [] }, ?_, ?_, ?_, ?_⟩
  · unfold readBlocks
    simp only [g1, bind, Except.bind, hre, pure, Except.pure]
  · intro a ha
    have := relocWord_target (blocksItems bs) base num τ hnum r.objects (decodeAll_objects _ _ _ _ _ hdec) a ha
    rw [g5]
    exact this
  · simp only [g3, List.map_map]
    rfl
  · exact g2

theorem readBlockInfosLoop_eq (τ : Nat → Nat) (bs : List WBlock) (pre : List Byte) (base fuel : Nat)
    (hfit : ∀ b ∈ bs, blockFits b) (hlen : pre.length + dataLen bs < 2 ^ 32) (hfuel : bs.length ≤ fuel) :
    readBlockInfosLoop (pre ++ bytesOf (withWords τ base (blocksItems bs))) fuel pre.length =
      .ok (directory pre.length bs) := by
  induction bs generalizing pre base fuel with
  | nil =>
    unfold readBlockInfosLoop
    rw [if_pos (by simp [blocksItems, withWords, bytesOf_nil])]
    rfl
  | cons b bs ih =>
    have hbf := hfit b (by simp)
    have hsplit : blocksItems (b :: bs) = blockItems b ++ blocksItems bs := rfl
    have hdl : dataLen (b :: bs) = blockLen b + dataLen bs := by
      unfold dataLen; rw [hsplit, bytesOf_append, List.length_append, blockItems_length]
    have hpos : 16 ≤ blockLen b := by unfold blockLen blockHeaderLen; omega
    have hbytes : bytesOf (withWords τ base (blocksItems (b :: bs))) =
        bytesOf (withWords τ base (blockItems b)) ++ bytesOf (withWords τ (base + blockLen b) (blocksItems bs)) := by
      rw [hsplit, withWords_append, bytesOf_append, blockItems_length]
    have hbl : (bytesOf (withWords τ base (blockItems b))).length = blockLen b := by rw [withWords_bytes_length, blockItems_length]
    have hex := extractBlock_eq pre (bytesOf (withWords τ (base + blockLen b) (blocksItems bs))) τ base b hbf (by omega)
    rw [List.append_assoc] at hex
    have hnext : pre.length + blockLen b = (pre ++ bytesOf (withWords τ base (blockItems b))).length := by simp [hbl]
    cases fuel with
    | zero => simp at hfuel
    | succ fuel =>
      unfold readBlockInfosLoop
      rw [if_neg (by rw [hbytes]; simp only [List.length_append, hbl]; omega)]
      rw [hbytes, hex]
      simp only [bind, Except.bind]
      rw [← List.append_assoc, hnext, ih _ _ _ (fun b' hb' => hfit b' (by simp [hb'])) (by simp only [List.length_append, hbl]; omega) (by simpa using hfuel), ← hnext]
      rfl

/-- Payload bytes of the blocks, after relocation. -/
def payloads (τ : Nat → Nat) (base : Nat) : List WBlock → List (List Byte)
  | [] => []
  | b :: bs => bytesOf (withWords τ (base + blockHeaderLen b) b.items) :: payloads τ (base + blockLen b) bs

theorem readBlocksLoop_handOut {α : Type} (τ : Nat → Nat) (decs : List (RBlock α)) (bs : List WBlock) (pre : List Byte) (base : Nat)
    (dev : RDev) (fuel : Nat) (hfit : ∀ b ∈ bs, blockFits b) (hlen : pre.length + dataLen bs < 2 ^ 32) (hfuel : bs.length ≤ fuel) :
    readBlocksLoop (pre ++ bytesOf (withWords τ base (blocksItems bs))) decs fuel pre.length dev =
      handOut decs (bs.zip (payloads τ base bs)) dev := by
  induction bs generalizing pre base dev fuel with
  | nil =>
    unfold readBlocksLoop
    rw [if_pos (by simp [blocksItems, withWords, bytesOf_nil])]
    rfl
  | cons b bs ih =>
    have hbf := hfit b (by simp)
    have hsplit : blocksItems (b :: bs) = blockItems b ++ blocksItems bs := rfl
    have hdl : dataLen (b :: bs) = blockLen b + dataLen bs := by
      unfold dataLen; rw [hsplit, bytesOf_append, List.length_append, blockItems_length]
    have hpos : 16 ≤ blockLen b := by unfold blockLen blockHeaderLen; omega
    have hbytes : bytesOf (withWords τ base (blocksItems (b :: bs))) =
        bytesOf (withWords τ base (blockItems b)) ++ bytesOf (withWords τ (base + blockLen b) (blocksItems bs)) := by
      rw [hsplit, withWords_append, bytesOf_append, blockItems_length]
    have hbl : (bytesOf (withWords τ base (blockItems b))).length = blockLen b := by rw [withWords_bytes_length, blockItems_length]
    have hex := extractBlock_eq pre (bytesOf (withWords τ (base + blockLen b) (blocksItems bs))) τ base b hbf (by omega)
    rw [List.append_assoc] at hex
    have hnext : pre.length + blockLen b = (pre ++ bytesOf (withWords τ base (blockItems b))).length := by simp [hbl]
    cases fuel with
    | zero => simp at hfuel
    | succ fuel =>
      have ih' := fun dev => ih (pre ++ bytesOf (withWords τ base (blockItems b))) (base + blockLen b) dev fuel
        (fun b' hb' => hfit b' (by simp [hb'])) (by simp only [List.length_append, hbl]; omega) (by simpa using hfuel)
      unfold readBlocksLoop
      rw [if_neg (by rw [hbytes]; simp only [List.length_append, hbl]; omega)]
      rw [hbytes, hex]
      simp only [bind, Except.bind, payloads, List.zip_cons_cons, handOut]
      rw [← List.append_assoc, hnext]
      simp only [ih']
      have hspan : bytesOf (withWords τ base (blockItems b)) = bytesOf (hdrItems b) ++ bytesOf (withWords τ (base + blockHeaderLen b) b.items) := by
        rw [withWords_block, bytesOf_append]
      have hseek : RDev.seek { dev with buf := bytesOf (withWords τ base (blockItems b)) } (blockHeaderLen b) =
          .ok { dev with buf := bytesOf (withWords τ base (blockItems b)), cur := blockHeaderLen b } := by
        unfold RDev.seek
        rw [if_neg]
        simp only [hbl, blockLen]; omega
      rw [hseek, hspan]
      generalize decs.find? _ = o
      cases o with
      | none => rfl
      | some d =>
        simp only
        generalize RProg.run _ _ = x
        cases x with
        | error e => rfl
        | ok y =>
          obtain ⟨a, dev1⟩ := y
          simp only [rethrowing]
          generalize handOut decs _ dev1 = z
          cases z with
          | error e => rfl
          | ok y => obtain ⟨rest, dev2⟩ := y; rfl

/-! ### Termination -/

/-- The bytes of a block of length zero: a zero length word and the block marker. -/
def zeroBlockAt (rec : List Byte) (p : Nat) : Prop := wordAt rec p = 0 ∧ wordAt rec (p + 4) = 0xdeadbeef

theorem wordAt_drop (buf : List Byte) (a b : Nat) : wordAt (buf.drop a) b = wordAt buf (a + b) := by
  unfold wordAt; rw [List.drop_drop]

theorem run_r32_ok (d : RDev) {β : Type} (k : W32 → RProg β) (x : β × RDev) (h : (r32.bind k).run d = .ok x) :
    d.cur + 4 ≤ d.buf.length ∧ (k (BitVec.ofNat 32 (wordAt d.buf d.cur))).run { d with cur := d.cur + 4 } = .ok x := by
  rcases RDev.data_word_iff d with ⟨h1, h2⟩ | ⟨_, h2⟩
  · refine ⟨h1, ?_⟩
    simp only [r32, RProg.bind, RProg.run, h2] at h
    exact h
  · simp only [r32, RProg.bind, RProg.run, h2] at h
    cases h

theorem wordAt_lt (buf : List Byte) (p : Nat) (h : p + 4 ≤ buf.length) : wordAt buf p < 2 ^ 32 :=
  (bigEndian_fold _ (by simp; omega)).2

/-- Extraction of a block: where it ends. -/
theorem extractBlock_end (rec : List Byte) (p : Nat) (info : BlockInfo) (span : List Byte) (hlen : rec.length < 2 ^ 32)
    (h : extractBlock rec p = .ok (info, span)) :
    info.recordEnd = p + wordAt rec p ∧ info.recordEnd ≤ rec.length ∧ p < rec.length ∧ wordAt rec (p + 4) = 0xdeadbeef := by
  unfold extractBlock at h
  split at h
  · cases h
  · rename_i hp
    simp only [bind, Except.bind, pure, Except.pure] at h
    split at h
    · cases h
    · rename_i v hv
      obtain ⟨⟨len, ver, name⟩, dev⟩ := v
      simp only at h
      split at h
      · cases h
      · split at h
        · cases h
        · rename_i hle
          simp only [Except.ok.injEq, Prod.mk.injEq] at h
          obtain ⟨rfl, -⟩ := h
          have hv' : (r32.bind fun blockLen => r32.bind fun marker =>
            (if marker.toNat ≠ blockMarker then (.throw .noMarker : RProg (Nat × W32 × List Byte)) else
            r32.bind fun version => r32.bind fun nameLen => (r8s nameLen.toNat).bind fun name =>
            .ret (blockLen.toNat, version, name))).run { buf := rec.drop p } = .ok ((len, ver, name), dev) := hv
          obtain ⟨g1, g2⟩ := run_r32_ok _ _ _ hv'
          obtain ⟨g3, g4⟩ := run_r32_ok _ _ _ g2
          have w1 := wordAt_lt (rec.drop p) 0 (by simpa using g1)
          have w2 := wordAt_lt (rec.drop p) 4 (by simpa using g3)
          rw [wordAt_drop] at w1 w2
          simp only [Nat.zero_add, wordAt_drop, Nat.add_zero] at g4
          by_cases hm : (BitVec.ofNat 32 (wordAt rec (p + 4))).toNat ≠ blockMarker
          · rw [if_pos hm] at g4; cases g4
          · rw [if_neg hm] at g4
            obtain ⟨g5, g6⟩ := run_r32_ok _ _ _ g4
            obtain ⟨g7, g8⟩ := run_r32_ok _ _ _ g6
            have hm' : wordAt rec (p + 4) = 0xdeadbeef := by
              simp only [BitVec.toNat_ofNat, Nat.mod_eq_of_lt w2, blockMarker, ne_eq] at hm
              omega
            have hl : len = wordAt rec p := by
              simp only [r8s, RProg.bind, RProg.run] at g8
              split at g8
              · cases g8
              · simp only [Except.ok.injEq, Prod.mk.injEq] at g8
                rw [← g8.1.1]
                simp only [Nat.add_zero] at w1
                simp only [BitVec.toNat_ofNat, Nat.mod_eq_of_lt w1]
            rw [hl] at hle
            simp only [hl]
            have : (p + wordAt rec p) % 2 ^ 32 = p + wordAt rec p := Nat.mod_eq_of_lt (by omega)
            exact ⟨this, by omega, by omega, hm'⟩

theorem apiRead_ne_diverge (buf : List Byte) (s p c : Nat) : apiRead buf s p c ≠ .error .diverge := by
  unfold apiRead; simp only
  split
  · intro h; cases h
  · split <;> (intro h; cases h)

theorem data_ne_diverge (d : RDev) (s c : Nat) : d.data s c ≠ .error .diverge := by
  unfold RDev.data
  have := apiRead_ne_diverge d.buf s d.cur c
  split
  · rename_i e he; rw [he] at this; intro h; cases h; exact this rfl
  · intro h; cases h

theorem blockHeader_ne_diverge (d : RDev) : blockHeader.run d ≠ .error .diverge := by
  have step : ∀ (s c : Nat) (k : List Nat → RProg (Nat × W32 × List Byte)) (d : RDev),
      (∀ l d', (k l).run d' ≠ .error .diverge) → (RProg.arr s c k).run d ≠ .error .diverge := by
    intro s c k d hk
    simp only [RProg.run]
    have := data_ne_diverge d s c
    split
    · rename_i e he; rw [he] at this; intro h; cases h; exact this rfl
    · exact hk _ _
  apply step; intro l1 d1
  apply step; intro l2 d2
  show RProg.run (if _ then _ else _) _ ≠ _
  split
  · intro h; cases h
  · apply step; intro l3 d3
    apply step; intro l4 d4
    apply step; intro l5 d5
    intro h; cases h

theorem extractBlock_ne_diverge (rec : List Byte) (p : Nat) : extractBlock rec p ≠ .error .diverge := by
  unfold extractBlock
  split
  · intro h; cases h
  · simp only [bind, Except.bind, pure, Except.pure]
    have := blockHeader_ne_diverge { buf := rec.drop p }
    split
    · rename_i e he; rw [he] at this; intro h; cases h; exact this rfl
    · unfold RDev.seek
      split
      · rename_i e he
        split at he
        · cases he; intro h; cases h
        · cases he
      · split <;> (intro h; cases h)

end Sio
