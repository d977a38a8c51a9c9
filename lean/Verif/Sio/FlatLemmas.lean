import Verif.Spec.Flat
import Verif.Sio.BlockLemmas
import Verif.Sio.TypedLemmas
import Verif.Props.Blocks
/-
Array boundaries do not matter for unpadded elements.
-/
namespace Sio
open Spec

theorem flat_nil : flat [] = [] := rfl
theorem flat_cons (i : Item) (is : List Item) : flat (i :: is) = flatItem i ++ flat is := rfl
theorem flat_append (a b : List Item) : flat (a ++ b) = flat a ++ flat b := by simp [flat]

/-- The three ways to flatten an array. -/
theorem flatItem_arr (sz : Nat) (v : List Nat) :
    (sz % 4 = 0 ∧ flatItem (.arr sz v) = v.map (fun x => .arr sz [x])) ∨
    (∃ b, sz = 1 ∧ v = [b] ∧ flatItem (.arr sz v) = [.arr 4 [b % 256 * 2 ^ 24]]) ∨
    (sz % 4 ≠ 0 ∧ ¬ (sz = 1 ∧ v.length = 1) ∧ flatItem (.arr sz v) = [.arr sz v]) := by
  by_cases h : sz % 4 = 0
  · left; exact ⟨h, by simp only [flatItem, if_pos h]⟩
  · right
    by_cases h1 : sz = 1 ∧ v.length = 1
    · left
      obtain ⟨rfl, hv⟩ := h1
      match v, hv with
      | [b], _ => exact ⟨b, rfl, rfl, rfl⟩
    · right
      refine ⟨h, h1, ?_⟩
      simp only [flatItem, if_neg h]
      split
      · simp at h1
      · rfl

theorem flatItem_unp (sz : Nat) (h : sz % 4 = 0) (v : List Nat) : flatItem (.arr sz v) = v.map (fun x => .arr sz [x]) := by
  simp only [flatItem, if_pos h]

theorem flat_flatItem (i : Item) : flat (flatItem i) = flatItem i := by
  cases i with
  | arr sz v =>
    rcases flatItem_arr sz v with ⟨h, e⟩ | ⟨b, rfl, rfl, e⟩ | ⟨h, h1, e⟩
    · rw [e]; clear e
      induction v with
      | nil => rfl
      | cons x v ih => simp [flat_cons, flatItem, h] at ih ⊢; exact ih
    · rfl
    · rw [e, flat_cons, e]; rfl
  | ptr a => rfl
  | tag a => rfl
  | bad => rfl

theorem flat_flat (is : List Item) : flat (flat is) = flat is := by
  induction is with
  | nil => rfl
  | cons i is ih => rw [flat_cons, flat_append, ih, flat_flatItem]

theorem takeSingles_eq (sz c : Nat) (is r : List Item) (v : List Nat) (h : takeSingles sz c is = some (v, r)) :
    is = v.map (fun x => .arr sz [x]) ++ r ∧ v.length = c := by
  induction c generalizing is v with
  | zero => simp only [takeSingles, Option.some.injEq, Prod.mk.injEq] at h; obtain ⟨rfl, rfl⟩ := h; exact ⟨rfl, rfl⟩
  | succ c ih =>
    match is, h with
    | .arr sz' [x] :: is, h =>
      simp only [takeSingles] at h
      split at h
      · rename_i e; subst e
        rw [Option.map_eq_some_iff] at h
        obtain ⟨⟨v', r'⟩, h1, h2⟩ := h
        simp only [Prod.mk.injEq] at h2
        obtain ⟨rfl, rfl⟩ := h2
        obtain ⟨e1, e2⟩ := ih _ _ h1
        exact ⟨by rw [e1]; rfl, by simp [e2]⟩
      · cases h

theorem takeSingles_map (sz : Nat) (v : List Nat) (is : List Item) :
    takeSingles sz v.length (v.map (fun x => .arr sz [x]) ++ is) = some (v, is) := by
  induction v with
  | nil => rfl
  | cons x v ih => simp [takeSingles, ih]

theorem runF_bind {α β : Type} (φ : Nat → Nat) (p : RProg α) (f : α → RProg β) (s : ISt) :
    (p >>= f).runF φ s = (p.runF φ s).bind fun r => (f r.1).runF φ r.2 := by
  induction p generalizing s with
  | ret a => rfl
  | throw e => rfl
  | arr sz c k ih =>
    show (RProg.arr sz c fun l => (k l).bind f).runF φ s = _
    simp only [RProg.runF]
    split
    · cases takeSingles sz c s.items with
      | none => rfl
      | some r => exact ih _ _
    · split
      · cases takeByte s.items with
        | none => rfl
        | some r => exact ih _ _
      · rcases s with ⟨_ | ⟨i, is⟩, n, rg⟩
        · rfl
        · cases i with
          | arr sz' v =>
            simp only
            split
            · exact ih _ _
            · rfl
          | ptr a => rfl
          | tag a => rfl
          | bad => rfl
  | ptr k ih =>
    show (RProg.ptr fun w => (k w).bind f).runF φ s = _
    simp only [RProg.runF]
    rcases s with ⟨_ | ⟨i, is⟩, n, rg⟩
    · rfl
    · cases i <;> first | rfl | exact ih _ _
  | tag o k ih =>
    show (RProg.tag o (k.bind f)).runF φ s = _
    simp only [RProg.runF]
    rcases s with ⟨_ | ⟨i, is⟩, n, rg⟩
    · rfl
    · cases i <;> first | rfl | exact ih _
  | new k ih => exact ih _ _

theorem takeByte_eq (is r : List Item) (b : Nat) (h : takeByte is = some (b, r)) : is = .arr 4 [b % 256 * 2 ^ 24] :: r ∧ b < 256 := by
  unfold takeByte at h
  split at h
  · rename_i x is
    split at h
    · rename_i hx
      simp only [Option.some.injEq, Prod.mk.injEq] at h
      obtain ⟨rfl, rfl⟩ := h
      have h1 : x / 2 ^ 24 < 256 := by omega
      refine ⟨?_, h1⟩
      rw [Nat.mod_eq_of_lt h1, show x / 2 ^ 24 * 2 ^ 24 = x by omega]
    · cases h
  · cases h

theorem takeByte_byte (b : Nat) (is : List Item) : takeByte (.arr 4 [b % 256 * 2 ^ 24] :: is) = some (b % 256, is) := by
  have h : b % 256 < 256 := Nat.mod_lt _ (by omega)
  generalize b % 256 = b at h
  simp only [takeByte]
  rw [if_pos (by omega), Nat.mul_div_cancel _ (by omega)]

/-- A reader of flat items is a reader of suitably merged items. -/
theorem runF_runI {α : Type} (φ : Nat → Nat) (p : RProg α) (s s' : ISt) (a : α) (h : p.runF φ s = some (a, s')) :
    ∃ used, s.items = flat used ++ s'.items ∧ ∀ rest, p.runI φ ⟨used ++ rest, s.next, s.regs⟩ = some (a, ⟨rest, s'.next, s'.regs⟩) := by
  induction p generalizing s with
  | ret x =>
    simp only [RProg.runF, Option.some.injEq, Prod.mk.injEq] at h
    obtain ⟨rfl, rfl⟩ := h
    exact ⟨[], rfl, fun _ => rfl⟩
  | throw e => simp [RProg.runF] at h
  | arr sz c k ih =>
    simp only [RProg.runF] at h
    split at h
    · rename_i hsz
      split at h
      · rename_i v is hts
        obtain ⟨e1, e2⟩ := takeSingles_eq _ _ _ _ _ hts
        obtain ⟨used, u1, u2⟩ := ih _ _ h
        refine ⟨.arr sz v :: used, ?_, ?_⟩
        · rw [e1, flat_cons, flatItem_unp sz hsz, List.append_assoc]; simp only at u1; rw [u1]
        · intro rest
          simp only [List.cons_append, RProg.runI, e2, and_self, if_true]
          exact u2 rest
      · cases h
    · rename_i hsz
      split at h
      · rename_i hone
        obtain ⟨rfl, rfl⟩ := hone
        split at h
        · rename_i b is hb
          obtain ⟨e1, e2⟩ := takeByte_eq _ _ _ hb
          obtain ⟨used, u1, u2⟩ := ih _ _ h
          refine ⟨.arr 1 [b] :: used, ?_, ?_⟩
          · rw [e1, flat_cons]; simp only at u1; rw [u1]; rfl
          · intro rest
            simp only [List.cons_append, RProg.runI, List.length_singleton, and_self, if_true, List.map_cons, List.map_nil,
              show b % 256 ^ 1 = b from Nat.mod_eq_of_lt e2]
            exact u2 rest
        · cases h
      · rename_i hone
        split at h
        · rename_i sz' v is hi
          split at h
          · rename_i hc
            obtain ⟨rfl, rfl⟩ := hc
            obtain ⟨used, u1, u2⟩ := ih _ _ h
            refine ⟨.arr sz v :: used, ?_, ?_⟩
            · rcases flatItem_arr sz v with ⟨h', e⟩ | ⟨b, rfl, rfl, e⟩ | ⟨h', h1, e⟩
              · exact absurd h' hsz
              · exact absurd ⟨rfl, rfl⟩ hone
              · rw [hi, flat_cons, e]; simp only at u1; rw [u1]; rfl
            · intro rest
              simp only [List.cons_append, RProg.runI, and_self, if_true]
              exact u2 rest
          · cases h
        · cases h
  | ptr k ih =>
    simp only [RProg.runF] at h
    split at h
    · rename_i x is hi
      obtain ⟨used, u1, u2⟩ := ih _ _ h
      refine ⟨.ptr x :: used, ?_, fun rest => u2 rest⟩
      rw [hi]; simp only at u1; rw [u1]; rfl
    · cases h
  | tag o k ih =>
    simp only [RProg.runF] at h
    split at h
    · rename_i x is hi
      obtain ⟨used, u1, u2⟩ := ih _ h
      refine ⟨.tag x :: used, ?_, fun rest => u2 rest⟩
      rw [hi]; simp only at u1; rw [u1]; rfl
    · cases h
  | new k ih =>
    simp only [RProg.runF] at h
    obtain ⟨used, u1, u2⟩ := ih _ _ h
    exact ⟨used, u1, fun rest => u2 rest⟩

/-! ## Bytes, references and numbers of flat items -/

theorem wireArray_append (sz : Nat) (h : sz % 4 = 0) (a b : List Nat) : wireArray sz (a ++ b) = wireArray sz a ++ wireArray sz b := by
  have hp : ∀ v : List Nat, padding (sz * v.length) = 0 := by
    intro v; unfold padding
    have : sz * v.length % 4 = 0 := by rw [Nat.mul_mod, h]; simp
    omega
  unfold wireArray
  rw [hp, hp, hp]
  simp

/-- A single byte looks like a word. -/
theorem wire_byte (b : Nat) : wireArray 4 [b % 256 * 2 ^ 24] = wireArray 1 [b] := by
  have h : b % 256 < 256 := Nat.mod_lt _ (by omega)
  have key : ∀ x : UInt8, wireArray 4 [x.toNat * 2 ^ 24] = wireArray 1 [x.toNat] := by
    intro x
    have h1 : ∀ y : Fin 256, wireArray 4 [y.val * 2 ^ 24] = wireArray 1 [y.val] := by decide +kernel
    exact h1 ⟨x.toNat, x.toNat_lt⟩
  have h2 : wireArray 1 [b] = wireArray 1 [b % 256] := by
    unfold wireArray
    simp [bigEndian]
  rw [h2]
  have := key (UInt8.ofNat (b % 256))
  rwa [UInt8.toNat_ofNat_of_lt' (by simpa using h)] at this

theorem bytesOf_flatItem (i : Item) : bytesOf (flatItem i) = itemBytes i := by
  cases i with
  | arr sz v =>
    rcases flatItem_arr sz v with ⟨h, e⟩ | ⟨b, rfl, rfl, e⟩ | ⟨h, h1, e⟩
    · rw [e]; clear e
      simp only [itemBytes]
      induction v with
      | nil => simp [bytesOf, wireArray, padding]
      | cons x v ih => rw [List.map_cons, bytesOf_cons, ih, show x :: v = [x] ++ v from rfl, wireArray_append sz h]; rfl
    · rw [e]
      simp only [bytesOf_cons, itemBytes]
      rw [wire_byte]; simp [bytesOf]
    · rw [e]; simp [bytesOf]
  | ptr a => simp [flatItem, bytesOf]
  | tag a => simp [flatItem, bytesOf]
  | bad => simp [flatItem, bytesOf]

theorem withWords_flatItem (σ : Nat → Nat) (b : Nat) (i : Item) : bytesOf (withWords σ b (flatItem i)) = itemBytes (setWord (σ b) i) := by
  cases i with
  | arr sz v =>
    rw [show setWord (σ b) (.arr sz v) = .arr sz v from rfl, ← bytesOf_flatItem]
    congr 1
    rcases flatItem_arr sz v with ⟨h, e⟩ | ⟨c, rfl, rfl, e⟩ | ⟨h, h1, e⟩
    · rw [e]; clear e
      induction v generalizing b with
      | nil => rfl
      | cons x v ih => simp only [List.map_cons, withWords, setWord]; rw [ih]
    · rfl
    · rw [e]; rfl
  | ptr a => simp [flatItem, bytesOf, withWords]
  | tag a => simp [flatItem, bytesOf, withWords]
  | bad => simp [flatItem, bytesOf, withWords]

theorem bytesOf_withWords_flat (σ : Nat → Nat) (b : Nat) (is : List Item) : bytesOf (withWords σ b (flat is)) = bytesOf (withWords σ b is) := by
  induction is generalizing b with
  | nil => rfl
  | cons i is ih =>
    rw [flat_cons, withWords_append, bytesOf_append, withWords_flatItem, bytesOf_flatItem, ih]; rfl

theorem bytesOf_flat (is : List Item) : bytesOf (flat is) = bytesOf is := by
  induction is with
  | nil => rfl
  | cons i is ih => rw [flat_cons, bytesOf_append, bytesOf_flatItem, ih]; rfl

theorem tagsOf_flat (is : List Item) : tagsOf (flat is) = tagsOf is := by
  induction is with
  | nil => rfl
  | cons i is ih =>
    rw [flat_cons, tagsOf_append, ih, tagsOf_cons i]
    congr 1
    cases i with
    | arr sz v =>
      rcases flatItem_arr sz v with ⟨h, e⟩ | ⟨c, rfl, rfl, e⟩ | ⟨h, h1, e⟩
      · rw [e]; clear e
        induction v with
        | nil => rfl
        | cons x v ih2 => rw [List.map_cons, tagsOf_cons, ih2]; rfl
      · rfl
      · rw [e]
    | ptr a => rfl
    | tag a => rfl
    | bad => rfl

theorem ptrsOf_flat (is : List Item) : ptrsOf (flat is) = ptrsOf is := by
  induction is with
  | nil => rfl
  | cons i is ih =>
    rw [flat_cons, ptrsOf_append, ih, ptrsOf_cons i]
    congr 1
    cases i with
    | arr sz v =>
      rcases flatItem_arr sz v with ⟨h, e⟩ | ⟨c, rfl, rfl, e⟩ | ⟨h, h1, e⟩
      · rw [e]; clear e
        induction v with
        | nil => rfl
        | cons x v ih2 => rw [List.map_cons, ptrsOf_cons, ih2]; rfl
      · rfl
      · rw [e]
    | ptr a => rfl
    | tag a => rfl
    | bad => rfl

/-- The references among items with offsets. -/
def refs (ois : List (Nat × Item)) : List (Nat × Item) := ois.filter (fun x => isRef x.2)

theorem refs_flat (b : Nat) (is : List Item) : refs (offsets b (flat is)) = refs (offsets b is) := by
  induction is generalizing b with
  | nil => rfl
  | cons i is ih =>
    rw [flat_cons, offsets_append, show refs (offsets b (i :: is)) = refs ((b, i) :: offsets (b + itemLen i) is) from rfl]
    unfold refs at ih ⊢
    rw [List.filter_append, bytesOf_flatItem, show (itemBytes i).length = itemLen i from rfl, ih]
    cases i with
    | arr sz v =>
      have : (offsets b (flatItem (.arr sz v))).filter (fun x => isRef x.2) = [] := by
        rcases flatItem_arr sz v with ⟨h, e⟩ | ⟨c, rfl, rfl, e⟩ | ⟨h, h1, e⟩
        · rw [e]; clear e
          generalize b = b'
          induction v generalizing b' with
          | nil => rfl
          | cons x v ih2 => simp only [List.map_cons, offsets, List.filter_cons, isRef, Bool.false_eq_true, if_false]; exact ih2 _
        · rfl
        · rw [e]; rfl
      rw [this]; rfl
    | ptr a => rfl
    | tag a => rfl
    | bad => rfl

theorem firstTag_refs (a : Nat) (ois : List (Nat × Item)) : firstTag a (refs ois) = firstTag a ois := by
  induction ois with
  | nil => rfl
  | cons x ois ih =>
    obtain ⟨o, i⟩ := x
    unfold refs at ih ⊢
    cases i with
    | tag t => rw [List.filter_cons, if_pos (by rfl)]; simp only [firstTag]; rw [ih]
    | ptr t => rw [List.filter_cons, if_pos (by rfl)]; simp only [firstTag]; rw [ih]
    | arr s v => rw [List.filter_cons, if_neg (by simp [isRef])]; simp only [firstTag]; rw [ih]
    | bad => rw [List.filter_cons, if_neg (by simp [isRef])]; simp only [firstTag]; rw [ih]

theorem Numbered.flat_congr (is js : List Item) (b : Nat) (num τ : Nat → Nat) (he : flat is = flat js) (h : Numbered is b num τ) : Numbered js b num τ := by
  have hr : refs (offsets b is) = refs (offsets b js) := by rw [← refs_flat, he, refs_flat]
  have ht : tagsOf is = tagsOf js := by rw [← tagsOf_flat, he, tagsOf_flat]
  have hp : ptrsOf is = ptrsOf js := by rw [← ptrsOf_flat, he, ptrsOf_flat]
  have hmem : ∀ o i, isRef i = true → ((o, i) ∈ offsets b js ↔ (o, i) ∈ offsets b is) := by
    intro o i hi
    have : ∀ l : List (Nat × Item), (o, i) ∈ refs l ↔ (o, i) ∈ l := by
      intro l; unfold refs; rw [List.mem_filter]; simp [hi]
    rw [← this, ← hr, this]
  have hf : ∀ a, firstTag a (offsets b js) = firstTag a (offsets b is) := by
    intro a; rw [← firstTag_refs, ← hr, firstTag_refs]
  constructor
  · rw [← hp]; exact h.range
  · rw [← hp]; exact h.inj
  · intro o a hoa; rw [← ht]; exact h.ptr o a ((hmem o _ rfl).1 hoa)
  · intro o a hoa; rw [← hp, hf]; exact h.tag o a ((hmem o _ rfl).1 hoa)

/-! ## Blocks -/

/-- Blocks that look the same on the wire. -/
def SameBlock (b c : WBlock) : Prop := c.name = b.name ∧ c.version = b.version ∧ flat c.items = flat b.items

/-- Lists of blocks that look the same on the wire. -/
inductive SameBlocks : List WBlock → List WBlock → Prop
  | nil : SameBlocks [] []
  | cons {b c : WBlock} {bs cs : List WBlock} (h : SameBlock b c) (t : SameBlocks bs cs) : SameBlocks (b :: bs) (c :: cs)

theorem SameBlock.len {b c : WBlock} (h : SameBlock b c) : blockLen c = blockLen b := by
  unfold blockLen blockHeaderLen
  rw [h.1, ← bytesOf_flat c.items, h.2.2, bytesOf_flat]

theorem SameBlock.hdr {b c : WBlock} (h : SameBlock b c) : hdrItems c = hdrItems b := by
  unfold hdrItems
  rw [h.len, h.2.1, h.1]

theorem fits_flatItem (i : Item) (h : fits i) : ∀ j ∈ flatItem i, fits j := by
  cases i with
  | arr sz v =>
    intro j hj
    rcases flatItem_arr sz v with ⟨h', e⟩ | ⟨c, rfl, rfl, e⟩ | ⟨h', h1, e⟩
    · rw [e, List.mem_map] at hj
      obtain ⟨x, hx, rfl⟩ := hj
      have h1 : 0 < v.length := List.length_pos_of_mem hx
      have h2 : sz * 1 ≤ sz * v.length := Nat.mul_le_mul_left _ h1
      simp only [fits, List.length_singleton] at h ⊢
      omega
    · rw [e, List.mem_singleton] at hj; subst hj; simp [fits]
    · rw [e, List.mem_singleton] at hj; subst hj; exact h
  | ptr a => intro j hj; simp only [flatItem, List.mem_singleton] at hj; subst hj; trivial
  | tag a => intro j hj; simp only [flatItem, List.mem_singleton] at hj; subst hj; trivial
  | bad => exact absurd h id

theorem itemLen_le (is : List Item) (i : Item) (h : i ∈ is) : itemLen i ≤ (bytesOf is).length := by
  induction is with
  | nil => cases h
  | cons j is ih =>
    rw [bytesOf_cons, List.length_append]
    rcases List.mem_cons.1 h with rfl | h
    · exact Nat.le_add_right _ _
    · have := ih h; omega

theorem wireArray_ge (sz : Nat) (v : List Nat) : sz * v.length ≤ itemLen (.arr sz v) := by
  simp only [itemLen, itemBytes]
  rw [wireArray_length]; omega

theorem mem_flat_bad (is : List Item) (h : Item.bad ∈ flat is) : Item.bad ∈ is := by
  unfold flat at h
  rw [List.mem_flatMap] at h
  obtain ⟨i, hi, hb⟩ := h
  cases i with
  | bad => exact hi
  | arr sz v => rcases flatItem_arr sz v with ⟨h, e⟩ | ⟨c, rfl, rfl, e⟩ | ⟨h, h1, e⟩ <;> rw [e] at hb <;> simp at hb
  | ptr a => simp [flatItem] at hb
  | tag a => simp [flatItem] at hb

theorem bad_mem_flat (is : List Item) (h : Item.bad ∈ is) : Item.bad ∈ flat is := by
  unfold flat
  rw [List.mem_flatMap]
  exact ⟨.bad, h, by simp [flatItem]⟩

theorem SameBlock.fits {b c : WBlock} (h : SameBlock b c) (hb : blockFits b) : blockFits c := by
  refine ⟨by rw [h.1]; exact hb.1, ?_, by rw [h.len]; exact hb.2.2⟩
  intro i hi
  have hlen := itemLen_le _ _ hi
  have hbl : blockLen c < 2 ^ 32 := by rw [h.len]; exact hb.2.2
  unfold blockLen blockHeaderLen at hbl
  cases i with
  | arr sz v =>
    have := wireArray_ge sz v
    simp only [Spec.fits]; omega
  | ptr a => trivial
  | tag a => trivial
  | bad =>
    have h1 := bad_mem_flat _ hi
    rw [h.2.2] at h1
    exact hb.2.1 _ (mem_flat_bad _ h1)

theorem decodeF_decodeAll {α : Type} (φ : Nat → Nat) (decs : List (RBlock α)) (bs : List WBlock) (n : Nat) (r : Decoded α)
    (h : decodeF φ decs bs n = some r) :
    ∃ cs, SameBlocks bs cs ∧ decodeAll φ decs cs n = some r := by
  induction bs generalizing n r with
  | nil => exact ⟨[], .nil, h⟩
  | cons b bs ih =>
    simp only [decodeF] at h
    split at h
    · rename_i hfind
      rw [Option.map_eq_some_iff] at h
      obtain ⟨r', h1, rfl⟩ := h
      obtain ⟨cs, c1, c2⟩ := ih _ _ h1
      refine ⟨b :: cs, .cons ⟨rfl, rfl, rfl⟩ c1, ?_⟩
      simp only [decodeAll, hfind, c2, Option.map_some]
    · rename_i d hfind
      split at h
      · cases h
      · rename_i a s hrun
        rw [Option.map_eq_some_iff] at h
        obtain ⟨r', h1, rfl⟩ := h
        obtain ⟨cs, c1, c2⟩ := ih _ _ h1
        obtain ⟨used, u1, u2⟩ := runF_runI _ _ _ _ _ hrun
        simp only at u1
        have hs : flat s.items = s.items := by
          have := congrArg flat u1
          rw [flat_flat, flat_append, flat_flat, u1] at this
          exact (List.append_cancel_left this).symm
        refine ⟨⟨b.name, b.version, used ++ s.items⟩ :: cs, .cons ⟨rfl, rfl, ?_⟩ c1, ?_⟩
        · rw [flat_append, hs, u1]
        · simp only [decodeAll, hfind, u2 s.items, c2, Option.map_some]
          congr 2
          congr 1
          rw [u1, List.length_append, List.length_append, Nat.add_sub_cancel, Nat.add_sub_cancel, List.take_left', List.take_left', ptrsOf_flat]
          · rfl
          · rfl

theorem flat_blocks (bs cs : List WBlock) (h : SameBlocks bs cs) : flat (blocksItems cs) = flat (blocksItems bs) := by
  induction h with
  | nil => rfl
  | @cons b c bs cs hb _ ih =>
    show flat (blockItems c ++ blocksItems cs) = flat (blockItems b ++ blocksItems bs)
    rw [flat_append, flat_append, ih]
    congr 1
    unfold blockItems
    rw [flat_append, flat_append, hb.hdr, hb.2.2]

/-- The object graph theorem for readers that need not keep the array boundaries of the writers. -/
theorem flat_graph {α : Type} (name buf : List Byte) (bs : List WBlock) (opts : W32) (decs : List (RBlock α)) (next : Nat)
    (hw : Writable name bs) (hdec : ∀ φ, (decodeF φ decs bs next).isSome) :
    ∃ info rec φ r ρ dev,
      writeRecord name buf bs opts = .ok (info, rec) ∧
      decodeF φ decs bs next = some r ∧
      readBlocks (rec.drop info.headerLength) decs next = .ok (r.results, ρ, dev) ∧
      (∀ a ∈ ptrsOf (blocksItems bs), ρ (φ a) = target r.objects a) := by
  obtain ⟨num, τ, h1, h2⟩ := writeRecord_eq name buf bs opts hw.nameOk hw.blocks hw.size
  have hd := hdec (ptrWord num (tagsOf (blocksItems bs)))
  rw [Option.isSome_iff_exists] at hd
  obtain ⟨r, hr⟩ := hd
  obtain ⟨cs, c1, c2⟩ := decodeF_decodeAll _ _ _ _ _ hr
  have hflat := flat_blocks bs cs c1
  have ht : tagsOf (blocksItems cs) = tagsOf (blocksItems bs) := by rw [← tagsOf_flat, hflat, tagsOf_flat]
  have hp : ptrsOf (blocksItems cs) = ptrsOf (blocksItems bs) := by rw [← ptrsOf_flat, hflat, ptrsOf_flat]
  have hdl : dataLen cs = dataLen bs := by unfold dataLen; rw [← bytesOf_flat, hflat, bytesOf_flat]
  obtain ⟨ρ, dev, g1, g2, g3, g4⟩ := readBlocks_eq decs cs (headerLen name) next num τ r
    (Numbered.flat_congr _ _ _ _ _ hflat.symm (Numbered.data _ _ _ _ _ h2)) (by rw [ht]; exact c2)
    (by
      have hb := hw.blocks
      clear h1 h2 hr c2 hflat ht hp hdl hw hdec
      induction c1 with
      | nil => intro b hb; cases hb
      | cons hs _ ih =>
        intro x hx
        rcases List.mem_cons.1 hx with rfl | hx
        · exact hs.fits (hb _ (by simp))
        · exact ih (fun y hy => hb y (by simp [hy])) x hx)
    (by rw [hdl]; have := hw.size; omega)
  rw [ht, hp] at g2
  refine ⟨_, _, _, r, ρ, dev, h1, hr, ?_, g2⟩
  rw [Props.data_of_record, ← bytesOf_withWords_flat, ← hflat, bytesOf_withWords_flat]
  exact g1

/-- A reader only sees the words of the pointers that are there. -/
theorem runF_congr {α : Type} (φ ψ : Nat → Nat) (p : RProg α) (s : ISt) (h : ∀ a ∈ ptrsOf s.items, φ a = ψ a) : p.runF φ s = p.runF ψ s := by
  induction p generalizing s with
  | ret x => rfl
  | throw e => rfl
  | arr sz c k ih =>
    simp only [RProg.runF]
    split
    · split
      · rename_i v is hts
        obtain ⟨e1, _⟩ := takeSingles_eq _ _ _ _ _ hts
        apply ih
        intro a ha
        apply h
        rw [e1, ptrsOf_append]
        exact List.mem_append_right _ ha
      · rfl
    · split
      · split
        · rename_i b is hb
          obtain ⟨e1, _⟩ := takeByte_eq _ _ _ hb
          apply ih
          intro a ha
          apply h
          rw [e1, ptrsOf_cons]; exact List.mem_append_right _ ha
        · rfl
      · split
        · rename_i hi
          split
          · apply ih
            intro a ha
            apply h
            rw [hi, ptrsOf_cons]; exact List.mem_append_right _ ha
          · rfl
        · rfl
  | ptr k ih =>
    simp only [RProg.runF]
    split
    · rename_i x is hi
      rw [h x (by rw [hi]; simp [ptrsOf])]
      apply ih
      intro a ha
      apply h
      rw [hi, ptrsOf_cons]; exact List.mem_append_right _ ha
    · rfl
  | tag o k ih =>
    simp only [RProg.runF]
    split
    · rename_i x is hi
      apply ih
      intro a ha
      apply h
      rw [hi, ptrsOf_cons]; exact List.mem_append_right _ ha
    · rfl
  | new k ih =>
    simp only [RProg.runF]
    exact ih _ _ h

end Sio
