import Verif.Sio.RelocLemmas
import Verif.Spec.Match
/-
Read programs: execution on a sequence of items, and its relation to execution on bytes;
pointer relocation on read.
-/
namespace Sio
open Spec

theorem runI_bind {α β : Type} (φ : Nat → Nat) (p : RProg α) (f : α → RProg β) (s : ISt) :
    (p >>= f).runI φ s = (p.runI φ s).bind (fun x => (f x.1).runI φ x.2) := by
  show (RProg.bind p f).runI φ s = _
  induction p generalizing s with
  | ret a => rfl
  | throw e => rfl
  | arr sz c k ih =>
    simp only [RProg.bind, RProg.runI]
    split
    · split
      · exact ih _ _
      · rfl
    · rfl
  | ptr k ih =>
    simp only [RProg.bind, RProg.runI]
    split
    · exact ih _ _
    · rfl
  | tag o k ih =>
    simp only [RProg.bind, RProg.runI]
    split
    · exact ih _
    · rfl
  | new k ih =>
    simp only [RProg.bind, RProg.runI]
    exact ih _ _

theorem runI_pure {α : Type} (φ : Nat → Nat) (a : α) (s : ISt) : (pure a : RProg α).runI φ s = some (a, s) := rfl

/-- Tag words of a sequence of items under an assignment, in order. -/
def tagWords (σ : Nat → Nat) : Nat → List Item → List Nat
  | _, [] => []
  | b, .tag a :: is => (σ b % 2 ^ 32) :: tagWords σ (b + itemLen (.tag a)) is
  | b, i :: is => tagWords σ (b + itemLen i) is

/-- Registration of tags by the reader. -/
def regTags (m : List (Nat × Nat)) : List (Nat × Nat) → List (Nat × Nat)
  | [] => m
  | (w, o) :: l => regTags (if w = 0xffffffff then m else mapInsert w o m) l

theorem regTags_append (m : List (Nat × Nat)) (a b : List (Nat × Nat)) : regTags m (a ++ b) = regTags (regTags m a) b := by
  induction a generalizing m with
  | nil => rfl
  | cons x a ih => obtain ⟨w, o⟩ := x; simp [regTags, ih]

theorem RDev.data_eq (d : RDev) (pre post : List Byte) (size : Nat) (vals : List Nat)
    (hb : d.buf = pre ++ wireArray size vals ++ post) (hc : d.cur = pre.length) (hs : size * vals.length + 3 < 2 ^ 32) :
    d.data size vals.length = .ok (vals.map (· % 256 ^ size), { d with cur := pre.length + (wireArray size vals).length }) := by
  unfold RDev.data
  rw [hb, hc, apiRead_eq _ _ _ _ hs]

theorem RDev.data_word (d : RDev) (pre post : List Byte) (w : Nat)
    (hb : d.buf = pre ++ bigEndian 4 w ++ post) (hc : d.cur = pre.length) :
    d.data 4 1 = .ok ([w % 2 ^ 32], { d with cur := pre.length + 4 }) := by
  have := RDev.data_eq d pre post 4 [w] (by rw [wireArray_one]; exact hb) hc (by simp)
  rw [wireArray_one, bigEndian_length] at this
  exact this

theorem tagsOf_cons (i : Item) (is : List Item) : tagsOf (i :: is) = tagsOf [i] ++ tagsOf is := by
  cases i <;> rfl
theorem ptrsOf_cons (i : Item) (is : List Item) : ptrsOf (i :: is) = ptrsOf [i] ++ ptrsOf is := by
  cases i <;> rfl

theorem tagsOf_append (a b : List Item) : tagsOf (a ++ b) = tagsOf a ++ tagsOf b := by
  simp [tagsOf]
theorem ptrsOf_append (a b : List Item) : ptrsOf (a ++ b) = ptrsOf a ++ ptrsOf b := by
  simp [ptrsOf]

theorem tagWords_append (σ : Nat → Nat) (b : Nat) (is js : List Item) :
    tagWords σ b (is ++ js) = tagWords σ b is ++ tagWords σ (b + (bytesOf is).length) js := by
  induction is generalizing b with
  | nil => simp [tagWords, bytesOf_nil]
  | cons i is ih =>
    cases i <;> simp [tagWords, ih, bytesOf_cons, itemLen, Nat.add_assoc]

/-- Execution on bytes follows execution on items. -/
theorem runI_run {α : Type} (φ : Nat → Nat) (p : RProg α) (s s' : ISt) (a : α) (h : p.runI φ s = some (a, s')) :
    ∃ used newregs, s.items = used ++ s'.items ∧ s'.regs = s.regs ++ newregs ∧ newregs.map (·.1) = tagsOf used ∧
      ∀ (d : RDev) (pre post : List Byte) (b : Nat) (σ : Nat → Nat),
        d.buf = pre ++ bytesOf (withWords σ b s.items) ++ post → d.cur = pre.length → d.next = s.next →
        (∀ o x, (o, Item.ptr x) ∈ offsets b s.items → σ o % 2 ^ 32 = φ x) → (∀ i ∈ s.items, fits i) →
        ∃ d', p.run d = .ok (a, d') ∧ d'.buf = d.buf ∧ d'.cur = pre.length + (bytesOf used).length ∧ d'.next = s'.next ∧
          d'.mem = d.mem ++ (ptrsOf used).map φ ∧
          d'.pointedAt = regTags d.pointedAt ((tagWords σ b used).zip (newregs.map (·.2))) := by
  induction p generalizing s with
  | ret x =>
    simp only [RProg.runI, Option.some.injEq, Prod.mk.injEq] at h
    obtain ⟨rfl, rfl⟩ := h
    refine ⟨[], [], rfl, by simp, rfl, ?_⟩
    intro d pre post b σ _ hc hn _ _
    exact ⟨d, rfl, rfl, by simpa [bytesOf_nil] using hc, hn, by simp [ptrsOf], rfl⟩
  | throw e => simp [RProg.runI] at h
  | arr sz c k ih =>
    obtain ⟨items, next, regs⟩ := s
    simp only [RProg.runI] at h
    split at h
    · rename_i sz' v is
      split at h
      · rename_i hcond
        obtain ⟨rfl, rfl⟩ := hcond
        obtain ⟨used, nr, h1, h2, h3, h4⟩ := ih _ _ h
        refine ⟨.arr sz v :: used, nr, congrArg (List.cons _) h1, h2, by rw [h3]; rfl, ?_⟩
        intro d pre post b σ hb hc hn hσ hfit
        simp only [withWords, setWord, bytesOf_cons, itemBytes] at hb
        have hd := RDev.data_eq d pre (bytesOf (withWords σ (b + itemLen (.arr sz v)) is) ++ post) sz v
          (by rw [hb]; simp) hc (hfit (.arr sz v) (by simp))
        obtain ⟨d', e1, e2, e3, e4, e5, e6⟩ := h4 { d with cur := pre.length + (wireArray sz v).length } (pre ++ wireArray sz v) post
          (b + itemLen (.arr sz v)) σ (by simp [hb]) (by simp) hn
          (fun o x hx => hσ o x (by simp [offsets, hx])) (fun i hi => hfit i (by simp [hi]))
        refine ⟨d', ?_, e2, ?_, e4, ?_, ?_⟩
        · simp only [RProg.run, hd]; exact e1
        · rw [e3, bytesOf_cons]; simp only [List.length_append, itemBytes]; omega
        · rw [e5]; rfl
        · rw [e6]; rfl
      · cases h
    · cases h
  | ptr k ih =>
    obtain ⟨items, next, regs⟩ := s
    simp only [RProg.runI] at h
    split at h
    · rename_i x is
      obtain ⟨used, nr, h1, h2, h3, h4⟩ := ih _ _ h
      refine ⟨.ptr x :: used, nr, congrArg (List.cons _) h1, h2, by rw [h3]; rfl, ?_⟩
      intro d pre post b σ hb hc hn hσ hfit
      simp only [withWords, setWord, bytesOf_cons, itemBytes] at hb
      have hd := RDev.data_word d pre (bytesOf (withWords σ (b + itemLen (.ptr x)) is) ++ post) (σ b) (by rw [hb]; simp) hc
      rw [hσ b x (by simp [offsets])] at hd
      obtain ⟨d', e1, e2, e3, e4, e5, e6⟩ := h4
        (let d0 : RDev := { d with cur := pre.length + 4 }
         let d1 := if φ x = 0 then d0 else { d0 with pointerTo := multiInsert (φ x) d0.mem.length d0.pointerTo }
         { d1 with mem := d1.mem ++ [φ x] }) (pre ++ bigEndian 4 (σ b)) post
        (b + itemLen (.ptr x)) σ (by dsimp only; split <;> simp [hb]) (by dsimp only; split <;> simp [bigEndian_length]) (by dsimp only; split <;> exact hn)
        (fun o x hx => hσ o x (by simp [offsets, hx])) (fun i hi => hfit i (by simp [hi]))
      refine ⟨d', ?_, ?_, ?_, e4, ?_, ?_⟩
      · simp only [RProg.run, hd, List.headD_cons]; exact e1
      · rw [e2]; dsimp only; split <;> rfl
      · rw [e3, bytesOf_cons]; simp only [List.length_append, itemBytes, bigEndian_length]; omega
      · rw [e5]; dsimp only; split <;> simp [ptrsOf]
      · rw [e6]; dsimp only; split <;> rfl
    · cases h
  | tag o k ih =>
    obtain ⟨items, next, regs⟩ := s
    simp only [RProg.runI] at h
    split at h
    · rename_i x is
      obtain ⟨used, nr, h1, h2, h3, h4⟩ := ih _ h
      refine ⟨.tag x :: used, (x, o) :: nr, congrArg (List.cons _) h1, by simp [h2], by simp [h3, tagsOf], ?_⟩
      intro d pre post b σ hb hc hn hσ hfit
      simp only [withWords, setWord, bytesOf_cons, itemBytes] at hb
      have hd := RDev.data_word d pre (bytesOf (withWords σ (b + itemLen (.tag x)) is) ++ post) (σ b) (by rw [hb]; simp) hc
      obtain ⟨d', e1, e2, e3, e4, e5, e6⟩ := h4
        (let d0 : RDev := { d with cur := pre.length + 4 }
         if σ b % 2 ^ 32 = 0xffffffff then d0 else { d0 with pointedAt := mapInsert (σ b % 2 ^ 32) o d0.pointedAt })
        (pre ++ bigEndian 4 (σ b)) post
        (b + itemLen (.tag x)) σ (by dsimp only; split <;> simp [hb]) (by dsimp only; split <;> simp [bigEndian_length]) (by dsimp only; split <;> exact hn)
        (fun o x hx => hσ o x (by simp [offsets, hx])) (fun i hi => hfit i (by simp [hi]))
      refine ⟨d', ?_, ?_, ?_, e4, ?_, ?_⟩
      · simp only [RProg.run, hd, List.headD_cons]; exact e1
      · rw [e2]; dsimp only; split <;> rfl
      · rw [e3, bytesOf_cons]; simp only [List.length_append, itemBytes, bigEndian_length]; omega
      · rw [e5]; dsimp only; split <;> simp [ptrsOf]
      · rw [e6]; dsimp only; simp only [tagWords, List.map_cons, List.zip_cons_cons, regTags]; split <;> rfl
    · cases h
  | new k ih =>
    simp only [RProg.runI] at h
    obtain ⟨used, nr, h1, h2, h3, h4⟩ := ih _ _ h
    refine ⟨used, nr, h1, h2, h3, ?_⟩
    intro d pre post b σ hb hc hn hσ hfit
    obtain ⟨d', e1, e2, e3, e4, e5, e6⟩ := h4 { d with next := d.next + 1 } pre post b σ hb hc (by simp [hn]) hσ hfit
    exact ⟨d', by simp only [RProg.run]; rw [← hn] at e1; exact e1, e2, e3, e4, e5, e6⟩

/-! ### Relocation on read -/

/-- The relocation table agrees with the pointer variables registered since there were `base` of them. -/
def MemOk (base : Nat) (d : RDev) : Prop :=
  SortedMulti d.pointerTo ∧ base ≤ d.mem.length ∧ ∀ m i, (m, i) ∈ d.pointerTo ↔ base ≤ i ∧ d.mem[i]? = some m ∧ m ≠ 0

theorem MemOk_push (base : Nat) (d : RDev) (m : Nat) (h : MemOk base d) :
    MemOk base (let d1 := if m = 0 then d else { d with pointerTo := multiInsert m d.mem.length d.pointerTo }
           { d1 with mem := d1.mem ++ [m] }) := by
  obtain ⟨hs, hbase, hm⟩ := h
  by_cases h0 : m = 0
  · subst h0
    refine ⟨hs, by simp; omega, ?_⟩
    intro m' i
    simp only [if_true]
    rw [hm m' i, List.getElem?_append]
    split
    · rfl
    · rename_i hi
      have h1 : d.mem[i]? = none := List.getElem?_eq_none (by omega)
      rw [h1]
      by_cases hi' : i - d.mem.length = 0
      · rw [hi']; simp; omega
      · rw [List.getElem?_eq_none (by simp; omega)]
  · simp only [if_neg h0]
    refine ⟨multiInsert_sorted _ _ _ hs, by simp; omega, ?_⟩
    intro m' i
    simp only
    rw [multiInsert_mem, hm m' i, List.getElem?_append, Prod.mk.injEq]
    by_cases hi : i < d.mem.length
    · simp only [hi, if_true]
      constructor
      · rintro (⟨_, h⟩ | h)
        · omega
        · exact h
      · exact .inr
    · simp only [hi, if_false]
      have h1 : d.mem[i]? = none := List.getElem?_eq_none (by omega)
      rw [h1]
      by_cases hi' : i = d.mem.length
      · subst hi'
        simp only [Nat.sub_self, List.getElem?_cons_zero, Option.some.injEq]
        constructor
        · rintro (⟨rfl, _⟩ | ⟨_, h, _⟩)
          · exact ⟨hbase, rfl, h0⟩
          · cases h
        · rintro ⟨_, rfl, _⟩; exact .inl ⟨rfl, trivial⟩
      · have : ([m] : List Nat)[i - d.mem.length]? = none := List.getElem?_eq_none (by simp; omega)
        rw [this]
        constructor
        · rintro (⟨_, h⟩ | ⟨_, h, _⟩)
          · exact absurd h hi'
          · cases h
        · rintro ⟨_, h, _⟩; cases h

theorem run_MemOk {α : Type} (base : Nat) (p : RProg α) (d d' : RDev) (a : α) (hr : p.run d = .ok (a, d'))
    (h : MemOk base d) : MemOk base d' := by
  induction p generalizing d with
  | ret x => simp only [RProg.run, Except.ok.injEq, Prod.mk.injEq] at hr; rw [← hr.2]; exact h
  | throw e => simp [RProg.run] at hr
  | arr s c k ih =>
    simp only [RProg.run] at hr
    split at hr
    · cases hr
    · rename_i vs d1 hd
      refine ih _ _ hr ?_
      unfold RDev.data at hd
      split at hd
      · cases hd
      · cases hd; exact h
  | ptr k ih =>
    simp only [RProg.run] at hr
    split at hr
    · cases hr
    · rename_i vs d1 hd
      refine ih _ _ hr ?_
      have : MemOk base d1 := by
        unfold RDev.data at hd
        split at hd
        · cases hd
        · cases hd; exact h
      exact MemOk_push base d1 _ this
  | tag o k ih =>
    simp only [RProg.run] at hr
    split at hr
    · cases hr
    · rename_i vs d1 hd
      refine ih _ hr ?_
      have : MemOk base d1 := by
        unfold RDev.data at hd
        split at hd
        · cases hd
        · cases hd; exact h
      split <;> exact this
  | new k ih => exact ih _ _ hr h

/-- What relocation makes of a raw match word, given the table of tags. -/
def relocWord (pa : List (Nat × Nat)) (m : Nat) : Nat := if m = 0 then 0 else (mapFind m pa).getD 0

theorem relocGroup_get (t : Nat) (g : List (Nat × Nat)) (mem : List Nat) (i : Nat) :
    (relocGroup t g mem)[i]? = if i ∈ g.map (·.2) ∧ i < mem.length then some t else mem[i]? := by
  induction g generalizing mem with
  | nil => simp [relocGroup]
  | cons e g ih =>
    simp only [relocGroup, ih, List.length_set, List.map_cons, List.mem_cons]
    by_cases h1 : i ∈ g.map (·.2)
    · by_cases h2 : i < mem.length <;> simp [h1, h2]
    · by_cases h3 : i = e.2
      · subst h3
        by_cases h2 : e.2 < mem.length <;> simp [h1, h2]
      · simp only [h1, h3, false_or, false_and, if_false]
        rw [List.getElem?_set_ne (by omega)]

theorem relocGroup_length (t : Nat) (g : List (Nat × Nat)) (mem : List Nat) : (relocGroup t g mem).length = mem.length := by
  induction g generalizing mem with
  | nil => rfl
  | cons e g ih => simp [relocGroup, ih]

theorem readRelocLoop_eq (pa : List (Nat × Nat)) (fuel : Nat) (es : List (Nat × Nat)) (mem : List Nat)
    (hf : es.length ≤ fuel) (hs : SortedMulti es) (hfun : ∀ m m' i, (m, i) ∈ es → (m', i) ∈ es → m = m') :
    ∃ mem', readRelocLoop pa fuel es mem = .ok mem' ∧ mem'.length = mem.length ∧
      (∀ m i, (m, i) ∈ es → i < mem.length → mem'[i]? = some ((mapFind m pa).getD 0)) ∧
      (∀ i, (∀ m, (m, i) ∉ es) → mem'[i]? = mem[i]?) := by
  induction fuel generalizing es mem with
  | zero =>
    cases es with
    | nil => exact ⟨mem, rfl, rfl, by simp, fun _ _ => rfl⟩
    | cons e es => simp at hf
  | succ fuel ih =>
    cases es with
    | nil => exact ⟨mem, rfl, rfl, by simp, fun _ _ => rfl⟩
    | cons e es =>
      have htw := takeWhile_sorted e es hs
      have hdl := dropWhile_length_lt e es
      have hrs := dropWhile_sorted e.1 _ hs
      simp only [readRelocLoop]
      generalize (e :: es).takeWhile (fun x => x.1 ≤ e.1) = g at htw
      generalize (e :: es).dropWhile (fun x => x.1 ≤ e.1) = r at htw hdl hrs
      obtain ⟨mem', h1, h2, h3, h4⟩ := ih r (relocGroup ((mapFind e.1 pa).getD 0) g mem)
        (by simp only [List.length_cons] at hf; omega) hrs
        (fun m m' i h h' => hfun m m' i ((htw _).2.1 h).1 ((htw _).2.1 h').1)
      refine ⟨mem', h1, by rw [h2, relocGroup_length], ?_, ?_⟩
      · intro m i hmi hi
        have hle : e.1 ≤ m := by
          have hs' := List.pairwise_cons.1 hs
          simp only [List.mem_cons] at hmi
          rcases hmi with rfl | h
          · exact Nat.le_refl _
          · exact hs'.1 _ h
        rcases Nat.lt_or_eq_of_le hle with hlt | rfl
        · exact h3 m i ((htw (m, i)).2.2 ⟨hmi, hlt⟩) (by rw [relocGroup_length]; exact hi)
        · rw [h4 i, relocGroup_get, if_pos]
          · exact ⟨List.mem_map.2 ⟨(e.1, i), (htw _).1.2 ⟨hmi, rfl⟩, rfl⟩, hi⟩
          · intro m hm
            have h5 := (htw _).2.1 hm
            have := hfun _ _ _ hmi h5.1
            have h6 := h5.2
            simp only at h6; omega
      · intro i hi
        rw [h4 i (fun m hm => hi m ((htw _).2.1 hm).1), relocGroup_get, if_neg]
        rintro ⟨hmem, _⟩
        obtain ⟨x, hx, rfl⟩ := List.mem_map.1 hmem
        exact hi x.1 ((htw x).1.1 hx).1

/-- Relocation on read maps every registered pointer variable, changes no other, and clears the tables. -/
theorem RDev.relocate_base (base : Nat) (d : RDev) (h : MemOk base d) :
    d.relocate = .ok { d with mem := d.mem.take base ++ (d.mem.drop base).map (relocWord d.pointedAt),
                              pointedAt := [], pointerTo := [] } := by
  obtain ⟨hs, hbase, hm⟩ := h
  obtain ⟨mem', h1, h2, h3, h4⟩ := readRelocLoop_eq d.pointedAt d.pointerTo.length d.pointerTo d.mem (Nat.le_refl _) hs
    (by
      intro m m' i a b
      have := ((hm m i).1 a).2.1
      rw [((hm m' i).1 b).2.1] at this
      cases this; rfl)
  have : mem' = d.mem.take base ++ (d.mem.drop base).map (relocWord d.pointedAt) := by
    apply List.ext_getElem?
    intro i
    rw [List.getElem?_append, List.length_take, Nat.min_eq_left hbase]
    by_cases hib : i < base
    · rw [if_pos hib, List.getElem?_take_of_lt hib]
      apply h4
      intro m hmi
      have := ((hm m i).1 hmi).1
      omega
    · rw [if_neg hib, List.getElem?_map, List.getElem?_drop, show base + (i - base) = i by omega]
      cases hi : d.mem[i]? with
      | none =>
        rw [h4 i]
        · simp [hi]
        · intro m hmi; have := ((hm m i).1 hmi).2.1; rw [hi] at this; cases this
      | some w =>
        have hil : i < d.mem.length := by
          rcases Nat.lt_or_ge i d.mem.length with h | h
          · exact h
          · rw [List.getElem?_eq_none h] at hi; cases hi
        by_cases hw : w = 0
        · subst hw
          rw [h4 i]
          · simp [hi, relocWord]
          · intro m hmi
            have := ((hm m i).1 hmi).2
            rw [hi] at this
            simp only [Option.some.injEq] at this
            exact this.2 this.1.symm
        · rw [h3 w i ((hm w i).2 ⟨by omega, hi, hw⟩) hil]
          simp [relocWord, hw]
  unfold RDev.relocate
  rw [h1, this]

theorem RDev.relocate_eq (d : RDev) (h : MemOk 0 d) :
    d.relocate = .ok { d with mem := d.mem.map (relocWord d.pointedAt), pointedAt := [], pointerTo := [] } := by
  rw [RDev.relocate_base 0 d h]; simp

/-! ### Lookup of tags by the reader -/

theorem regTags_sorted (m : List (Nat × Nat)) (l : List (Nat × Nat)) (hs : SortedMap m) : SortedMap (regTags m l) := by
  induction l generalizing m with
  | nil => exact hs
  | cons x l ih =>
    obtain ⟨w, o⟩ := x
    simp only [regTags]
    apply ih
    split
    · exact hs
    · exact mapInsert_sorted _ _ _ hs

theorem mapFind_regTags (m l : List (Nat × Nat)) (w : Nat) (hs : SortedMap m) (hw : w ≠ 0xffffffff) :
    mapFind w (regTags m l) = (mapFind w m).or (mapFind w l) := by
  induction l generalizing m with
  | nil => simp [regTags, mapFind]
  | cons x l ih =>
    obtain ⟨w', o⟩ := x
    simp only [regTags, mapFind_cons]
    by_cases h : w' = 0xffffffff
    · rw [if_pos h, ih _ hs, if_neg (by omega)]
    · rw [if_neg h, ih _ (mapInsert_sorted _ _ _ hs), mapFind_mapInsert _ _ _ _ hs]
      by_cases h' : w' = w
      · subst h'
        simp only [if_true]
        cases mapFind w' m <;> simp
      · rw [if_neg (by omega), if_neg h']

end Sio
