import Verif.Lcio.CollectionLemmas
/-
Reading an event record that was written.
-/
namespace Lcio
open Sio Spec

theorem tagsOf_singles (sz : Nat) (v : List Nat) : tagsOf (v.map fun x => Item.arr sz [x]) = [] := by
  induction v with
  | nil => rfl
  | cons x v ih => exact ih

/-- What is registered goes with the tags that are read. -/
theorem runF_tags {α : Type} (φ : Nat → Nat) (p : RProg α) (s s' : ISt) (a : α) (h : p.runF φ s = some (a, s')) :
    ∃ new, s'.regs = s.regs ++ new ∧ tagsOf s.items = new.map (·.1) ++ tagsOf s'.items := by
  induction p generalizing s with
  | ret x =>
    simp only [RProg.runF, Option.some.injEq, Prod.mk.injEq] at h
    obtain ⟨_, rfl⟩ := h
    exact ⟨[], by simp, by simp⟩
  | throw e => cases h
  | arr sz c k ih =>
    simp only [RProg.runF] at h
    split at h
    · split at h
      · rename_i v is hts
        obtain ⟨e1, _⟩ := takeSingles_eq _ _ _ _ _ hts
        obtain ⟨new, h1, h2⟩ := ih _ _ h
        refine ⟨new, h1, ?_⟩
        rw [e1, tagsOf_append, ← h2]
        have : tagsOf (v.map fun x => Item.arr sz [x]) = [] := by
          exact tagsOf_singles sz v
        rw [this]; rfl
      · cases h
    · split at h
      · split at h
        · rename_i b is hb
          obtain ⟨e1, _⟩ := takeByte_eq _ _ _ hb
          obtain ⟨new, h1, h2⟩ := ih _ _ h
          exact ⟨new, h1, by rw [e1]; exact h2⟩
        · cases h
      · split at h
        · rename_i sz' v is heq
          split at h
          · obtain ⟨new, h1, h2⟩ := ih _ _ h
            exact ⟨new, h1, by rw [heq]; exact h2⟩
          · cases h
        · cases h
  | ptr k ih =>
    simp only [RProg.runF] at h
    split at h
    · rename_i a' is heq
      obtain ⟨new, h1, h2⟩ := ih _ _ h
      exact ⟨new, h1, by rw [heq]; exact h2⟩
    · cases h
  | tag o k ih =>
    simp only [RProg.runF] at h
    split at h
    · rename_i a' is heq
      obtain ⟨new, h1, h2⟩ := ih _ h
      refine ⟨(a', o) :: new, ?_, ?_⟩
      · rw [h1, List.append_assoc]; rfl
      · rw [heq, tagsOf_cons, h2]; rfl
    · cases h
  | new k ih =>
    simp only [RProg.runF] at h
    obtain ⟨new, h1, h2⟩ := ih _ _ h
    exact ⟨new, h1, h2⟩

theorem pidRegs_fst (n : Nat) (l : List Pid) : (pidRegs n l).map (·.1) = l.map (·.addr) := by
  unfold pidRegs
  rw [List.map_fst_zip]
  simp

theorem elemsRegs_fst (flag : W32) (k : Kind) (n : Nat) (es : List Elem) (h : ∀ e ∈ es, e.obj ≠ none) (hs : flag.getLsbD 18 = false) :
    (elemsRegs flag k n es).map (·.1) = tagged flag k es := by
  unfold tagged
  rw [if_neg (by rw [hs]; exact Bool.false_ne_true)]
  induction es generalizing n with
  | nil => rfl
  | cons e es ih =>
    simp only [elemsRegs, List.map_append, List.flatMap_cons, ih _ (fun x hx => h x (by simp [hx]))]
    congr 1
    obtain ⟨o, ho⟩ := Option.ne_none_iff_exists'.1 (h e (by simp))
    simp only [elemRegs, ho, objRegs, List.map_append, pidRegs_fst]
    congr 1
    split <;> rfl

theorem _root_.Spec.CollectionOk.objs {std : Std Pid} {k : Kind} {c : Collection} (h : CollectionOk std k c) (hs : c.flag.getLsbD 18 = false) :
    ∀ e ∈ c.elems, e.obj ≠ none := by
  intro e he
  obtain ⟨o, ho, _⟩ := h.objects hs e he
  rw [ho]; simp

theorem colRegs_fst {std : Std Pid} (k : Kind) (n : Nat) (c : Collection) (h : CollectionOk std k c) :
    (colRegs k n c).map (·.1) = tagged c.flag k c.elems := by
  unfold colRegs
  cases hs : c.flag.getLsbD 18
  · rw [if_neg (by simp)]
    exact elemsRegs_fst _ _ _ _ (h.objs hs) hs
  · unfold tagged; rw [if_pos rfl, if_pos hs]; rfl

theorem tags_write (std : Std Pid) (k : Kind) (c : Collection) (h : CollectionOk std k c) : tagsOf (c.write std) = tagged c.flag k c.elems := by
  have := collectionLaw std k c h id [] 0 []
  obtain ⟨new, h1, h2⟩ := runF_tags _ _ _ _ _ this
  simp only [List.nil_append, List.append_nil, tagsOf_flat] at h1 h2
  rw [h2, ← h1, colRegs_fst _ _ _ h]
  simp [tagsOf]

/-! ### Identities -/

/-- Identities from `n` up to `n + k`, each once. -/
def Fresh (n k : Nat) (ids : List Nat) : Prop := ids.Nodup ∧ ∀ i ∈ ids, n ≤ i ∧ i < n + k

theorem Fresh.append {n a b : Nat} {l l' : List Nat} (h : Fresh n a l) (h' : Fresh (n + a) b l') : Fresh n (a + b) (l ++ l') := by
  refine ⟨List.nodup_append.2 ⟨h.1, h'.1, ?_⟩, ?_⟩
  · intro x hx y hy he
    have := h.2 x hx; have := h'.2 y hy; omega
  · intro i hi
    rcases List.mem_append.1 hi with hi | hi
    · have := h.2 i hi; omega
    · have := h'.2 i hi; omega

theorem elemRegs_fresh (flag : W32) (k : Kind) (n : Nat) (e : Elem) : Fresh n (elemNews e) ((elemRegs flag k n e).map (·.2)) := by
  unfold elemRegs elemNews
  cases e.obj with
  | none => exact ⟨by simp, by simp⟩
  | some o =>
    simp only [objRegs, List.map_append]
    have hp : (pidRegs (n + 1) (pidsOf o)).map (·.2) = List.range' (n + 1) (pidsOf o).length := by
      unfold pidRegs; rw [List.map_snd_zip]; simp
    rw [hp]
    refine ⟨List.nodup_append.2 ⟨List.nodup_range', by split <;> simp, ?_⟩, ?_⟩
    · intro x hx y hy he
      rw [List.mem_range'_1] at hx
      split at hy
      · simp only [List.map_cons, List.map_nil, List.mem_singleton] at hy; omega
      · cases hy
    · intro i hi
      rcases List.mem_append.1 hi with hi | hi
      · rw [List.mem_range'_1] at hi; omega
      · split at hi
        · simp only [List.map_cons, List.map_nil, List.mem_singleton] at hi; omega
        · cases hi

theorem elemsRegs_fresh (flag : W32) (k : Kind) (n : Nat) (es : List Elem) : Fresh n (elemsNews es) ((elemsRegs flag k n es).map (·.2)) := by
  induction es generalizing n with
  | nil => exact ⟨List.nodup_nil, by simp [elemsRegs]⟩
  | cons e es ih =>
    simp only [elemsRegs, elemsNews, List.map_append]
    exact (elemRegs_fresh flag k n e).append (ih _)

theorem colRegs_fresh (k : Kind) (n : Nat) (c : Collection) : Fresh n (colNews c) ((colRegs k n c).map (·.2)) := by
  unfold colRegs colNews
  split
  · exact ⟨by simp, by simp⟩
  · exact elemsRegs_fresh _ _ _ _

/-! ### The event -/

/-- The block of a collection. -/
def colBlock (std : Std Pid) (c : Str × Collection) : WBlock := ⟨c.1, blockVersion, c.2.write std⟩

/-- The results of reading the collections `cs` of which some are wanted. -/
def loadCols (std : Std Pid) (want : Str → Bool) (φ : Nat → Nat) : Nat → List (Str × Collection) → List (Str × Collection)
  | _, [] => []
  | n, c :: cs => if want c.1 then (c.1, loadCol std φ n c.2) :: loadCols std want φ (n + colNews c.2) cs else loadCols std want φ n cs
/-- How many objects are made. -/
def evNews (want : Str → Bool) : List (Str × Collection) → Nat
  | [] => 0
  | c :: cs => (if want c.1 then colNews c.2 else 0) + evNews want cs
/-- The objects that can be pointed at. -/
def evObjs (want : Str → Bool) : Nat → List (Str × Collection) → List (Nat × Option Nat)
  | _, [] => []
  | n, c :: cs =>
    if want c.1 then (colRegs (kindD c.2) n c.2).map (fun x => (x.1, some x.2)) ++ evObjs want (n + colNews c.2) cs
    else (tagged c.2.flag (kindD c.2) c.2.elems).map (·, none) ++ evObjs want n cs

theorem decodeF_event (std : Std Pid) (want : Str → Bool) (decs : List (RBlock Collection)) (φ : Nat → Nat) (cs : List (Str × Collection)) (n : Nat)
    (hok : ∀ c ∈ cs, CollectionOk std (kindD c.2) c.2)
    (hd : ∀ c ∈ cs, decs.find? (fun d => d.name == c.1) = if want c.1 then some ⟨c.1, Collection.read std c.2.type⟩ else none) :
    ∃ slots, decodeF φ decs (cs.map (colBlock std)) n = some ⟨loadCols std want φ n cs, n + evNews want cs, evObjs want n cs, slots⟩ := by
  induction cs generalizing n with
  | nil => exact ⟨[], rfl⟩
  | cons c cs ih =>
    have hc := hok c (by simp)
    have hdc := hd c (by simp)
    simp only [List.map_cons, decodeF, colBlock]
    rw [hdc]
    by_cases hw : want c.1 = true
    · obtain ⟨slots, ih⟩ := ih (n + colNews c.2) (fun x hx => hok x (by simp [hx])) (fun x hx => hd x (by simp [hx]))
      rw [if_pos hw]
      have hl := collectionLaw std (kindD c.2) c.2 hc φ [] n []
      simp only [List.append_nil, List.nil_append] at hl
      simp only [hl, ih, Option.map_some, loadCols, evNews, evObjs, hw, if_true, tagsOf, List.filterMap_nil, List.map_nil, List.append_nil, Nat.add_assoc]
      exact ⟨_, rfl⟩
    · obtain ⟨slots, ih⟩ := ih n (fun x hx => hok x (by simp [hx])) (fun x hx => hd x (by simp [hx]))
      rw [if_neg hw]
      simp only [ih, Option.map_some, loadCols, evNews, evObjs, hw, if_false, tags_write std _ _ hc, Nat.zero_add, Bool.false_eq_true]
      exact ⟨_, rfl⟩

theorem evObjs_fst (std : Std Pid) (want : Str → Bool) (n : Nat) (cs : List (Str × Collection))
    (hok : ∀ c ∈ cs, CollectionOk std (kindD c.2) c.2) : (evObjs want n cs).map (·.1) = allTagged cs := by
  induction cs generalizing n with
  | nil => rfl
  | cons c cs ih =>
    have hc := hok c (by simp)
    simp only [evObjs, allTagged, List.flatMap_cons]
    split
    · rw [List.map_append, ih _ (fun x hx => hok x (by simp [hx])), List.map_map]
      congr 1
      exact colRegs_fst _ _ _ hc
    · rw [List.map_append, ih _ (fun x hx => hok x (by simp [hx])), List.map_map]
      congr 1
      exact List.map_id _

theorem find_mem_nodup (l : List (Nat × Option Nat)) (h : (l.map (·.1)).Nodup) (x : Nat × Option Nat) (hx : x ∈ l) :
    l.find? (fun y => y.1 == x.1) = some x := by
  induction l with
  | nil => cases hx
  | cons y l ih =>
    simp only [List.map_cons, List.nodup_cons] at h
    rcases List.mem_cons.1 hx with rfl | hx
    · simp
    · have hne : y.1 ≠ x.1 := fun e => h.1 (e ▸ List.mem_map_of_mem (f := (·.1)) hx)
      rw [List.find?_cons_of_neg (by simpa using hne)]
      exact ih h.2 hx

theorem target_mem (l : List (Nat × Option Nat)) (h : (l.map (·.1)).Nodup) (h0 : 0 ∉ l.map (·.1)) (a i : Nat) (hx : (a, some i) ∈ l) :
    target l a = i := by
  have ha : a ≠ 0 := fun e => h0 (e ▸ List.mem_map_of_mem (f := (·.1)) hx)
  unfold target
  rw [if_neg ha, find_mem_nodup l h _ hx]

theorem target_none (l : List (Nat × Option Nat)) (a : Nat) (hx : ∀ i, (a, some i) ∉ l) : target l a = 0 := by
  unfold target
  split
  · rfl
  · split
    · rename_i heq
      have h1 := List.mem_of_find?_eq_some heq
      have h2 := List.find?_some heq
      simp only [beq_iff_eq] at h2
      subst h2
      exact absurd h1 (hx _)
    · rfl

theorem evObjs_wanted (std : Std Pid) (want : Str → Bool) (n : Nat) (cs : List (Str × Collection))
    (hok : ∀ c ∈ cs, CollectionOk std (kindD c.2) c.2) (a : Nat) :
    (∃ i, (a, some i) ∈ evObjs want n cs) ↔ a ∈ allTagged (cs.filter fun c => want c.1) := by
  induction cs generalizing n with
  | nil => simp [evObjs, allTagged]
  | cons c cs ih =>
    have hc := hok c (by simp)
    have ih := fun n => ih n (fun x hx => hok x (by simp [hx]))
    simp only [evObjs]
    by_cases hw : want c.1 = true
    · rw [if_pos hw, List.filter_cons_of_pos (p := fun c : Str × Collection => want c.1) hw]
      simp only [allTagged, List.flatMap_cons, List.mem_append, exists_or]
      rw [ih, ← colRegs_fst (kindD c.2) n c.2 hc]
      simp [allTagged]
    · rw [if_neg hw, List.filter_cons_of_neg (p := fun c : Str × Collection => want c.1) hw, ← ih n]
      simp

theorem evObjs_fresh (want : Str → Bool) (n : Nat) (cs : List (Str × Collection)) :
    Fresh n (evNews want cs) ((evObjs want n cs).filterMap (·.2)) := by
  induction cs generalizing n with
  | nil => exact ⟨by simp [evObjs], by simp [evObjs]⟩
  | cons c cs ih =>
    simp only [evObjs, evNews]
    split
    · rw [List.filterMap_append]
      refine Fresh.append ?_ (ih _)
      rw [List.filterMap_map]
      have : (fun x : Nat × Option Nat => x.2) ∘ (fun x : Nat × Nat => (x.1, some x.2)) = fun x => some x.2 := rfl
      rw [this, List.filterMap_eq_map']
      exact colRegs_fresh _ _ _
    · rw [List.filterMap_append, List.filterMap_map, Nat.zero_add]
      have : (fun x : Nat × Option Nat => x.2) ∘ (fun x : Nat => (x, none)) = fun _ => none := rfl
      rw [this, List.filterMap_eq_nil_iff.2 (fun _ _ => rfl), List.nil_append]
      exact ih n

theorem map_zip_range (T : Nat → Nat) (l : List Pid) (n : Nat) (h : ∀ x ∈ pidRegs n l, T x.1 = x.2) :
    List.range' n l.length = l.map fun p => T p.addr := by
  have h1 : (pidRegs n l).map (fun x => T x.1) = (pidRegs n l).map (·.2) := List.map_congr_left h
  have h2 : (pidRegs n l).map (·.2) = List.range' n l.length := by unfold pidRegs; rw [List.map_snd_zip]; simp
  rw [h2] at h1
  rw [← h1, show (fun x : Nat × Nat => T x.1) = T ∘ (·.1) from rfl, ← List.map_map, pidRegs_fst, List.map_map]
  rfl

theorem All2.nil {α β : Type} (R : α → β → Prop) : All2 R [] [] := ⟨rfl, by simp⟩
theorem All2.cons {α β : Type} {R : α → β → Prop} {a : α} {b : β} {l : List α} {l' : List β} (h : R a b) (t : All2 R l l') :
    All2 R (a :: l) (b :: l') := by
  refine ⟨by simp [t.1], ?_⟩
  intro i x y hx hy
  cases i with
  | zero => simp only [List.getElem?_cons_zero, Option.some.injEq] at hx hy; subst hx; subst hy; exact h
  | succ i => exact t.2 i x y (by simpa using hx) (by simpa using hy)

theorem loadElems_ok (std : Std Pid) (flag flag' : W32) (k : Kind) (T : Nat → Nat) (n : Nat) (es : List Elem)
    (hs : flag'.getLsbD 18 = false) (hb : canPointAt flag k = canPointAt flag' k)
    (hobj : ∀ e ∈ es, e.obj ≠ none) (h : ∀ x ∈ elemsRegs flag k n es, T x.1 = x.2) :
    All2 (LoadedElem std flag' k T) es (loadElems std flag' T n es) := by
  induction es generalizing n with
  | nil => exact All2.nil _
  | cons e es ih =>
    simp only [elemsRegs, List.mem_append] at h
    refine All2.cons ?_ (ih _ (fun x hx => hobj x (by simp [hx])) fun x hx => h x (Or.inr hx))
    obtain ⟨o, ho⟩ := Option.ne_none_iff_exists'.1 (hobj e (by simp))
    have he : ∀ x ∈ elemRegs flag k n e, T x.1 = x.2 := fun x hx => h x (Or.inl hx)
    simp only [elemRegs, ho, objRegs, List.mem_append] at he
    unfold LoadedElem
    rw [if_neg (by rw [hs]; exact Bool.false_ne_true)]
    refine ⟨⟨o, ho, ?_⟩, ?_⟩
    · simp only [loadElem, ho, Option.map_some]
      rw [map_zip_range T (pidsOf o) (n + 1) fun x hx => he x (Or.inl hx)]
    · intro hc
      rw [← hb] at hc
      exact (he (e.addr, n) (Or.inr (by rw [if_pos hc]; simp))).symm

theorem written_bits (std : Std Pid) (k : Kind) (c : Collection) (h : CollectionOk std k c) :
    ∀ i, i ≠ 31 → (c.written std).flag.getLsbD i = c.flag.getLsbD i := by
  obtain ⟨ctx, c', hp⟩ := prepare_ok std k c h.access h.vertices h.generic
  rw [written_eq std k c ctx c' h.kind hp]
  exact hp.bits

theorem loadCol_ok (std : Std Pid) (k : Kind) (T : Nat → Nat) (n : Nat) (c : Collection) (hc : CollectionOk std k c)
    (h : ∀ x ∈ colRegs k n c, T x.1 = x.2) : LoadedCol std k T c (loadCol std T n c) := by
  have hb := written_bits std k c hc
  refine ⟨rfl, rfl, rfl, ?_⟩
  simp only [loadCol]
  unfold colRegs at h
  split
  · rename_i hs
    refine ⟨by simp, ?_⟩
    intro i a b ha hb'
    unfold LoadedElem
    rw [if_pos (by rw [hb 18 (by decide)]; exact hs)]
    rw [List.getElem?_map, ha] at hb'
    simpa using hb'.symm
  · rename_i hs
    rw [if_neg hs] at h
    rw [Bool.not_eq_true] at hs
    exact loadElems_ok std c.flag _ k T n _ (by rw [hb 18 (by decide)]; exact hs) (canPointAt_congr _ _ _ fun i hi => (hb i hi).symm) (hc.objs hs) h

theorem loadCols_ok (std : Std Pid) (want : Str → Bool) (T : Nat → Nat) (n : Nat) (cs : List (Str × Collection))
    (hok : ∀ c ∈ cs, CollectionOk std (kindD c.2) c.2) (h : ∀ a i, (a, some i) ∈ evObjs want n cs → T a = i) :
    All2 (fun c c' => c'.1 = c.1 ∧ LoadedCol std (kindD c.2) T c.2 c'.2) (cs.filter fun c => want c.1) (loadCols std want T n cs) := by
  induction cs generalizing n with
  | nil => exact All2.nil _
  | cons c cs ih =>
    simp only [evObjs, loadCols] at h ⊢
    by_cases hw : want c.1 = true
    · rw [if_pos hw] at h ⊢
      rw [List.filter_cons_of_pos (p := fun c : Str × Collection => want c.1) hw]
      simp only [List.mem_append] at h
      refine All2.cons ⟨rfl, ?_⟩ (ih _ (fun x hx => hok x (by simp [hx])) fun a i hx => h a i (Or.inr hx))
      exact loadCol_ok std _ T n c.2 (hok c (by simp)) fun x hx => h x.1 x.2 (Or.inl (List.mem_map_of_mem (f := fun x => (x.1, some x.2)) hx))
    · rw [if_neg hw] at h ⊢
      rw [List.filter_cons_of_neg (p := fun c : Str × Collection => want c.1) hw]
      exact ih _ (fun x hx => hok x (by simp [hx])) fun a i hx => h a i (List.mem_append.2 (Or.inr hx))

theorem mapPtr_loadCol (std : Std Pid) (k : Kind) (f g : Nat → Nat) (n : Nat) (c : Collection) (h : CollectionOk std k c) :
    (loadCol std f n c).mapPtr g = loadCol std (fun a => g (f a)) n c := by
  have hb := written_bits std k c h
  simp only [loadCol, Collection.mapPtr]
  congr 1
  split
  · simp [Elem.mapPtr]
  · rename_i hs
    rw [Bool.not_eq_true] at hs
    exact mapPtr_loadElems _ _ _ _ _ _ (h.objs hs)

theorem loadCol_congr (std : Std Pid) (k : Kind) (f g : Nat → Nat) (n : Nat) (c : Collection) (h : CollectionOk std k c)
    (hfg : ∀ a ∈ ptrsOf (c.write std), f a = g a) : loadCol std f n c = loadCol std g n c := by
  have h1 := collectionLaw std k c h f [] n []
  rw [runF_congr f g _ _ (by simpa [ptrsOf_flat] using hfg), collectionLaw std k c h g [] n []] at h1
  simp only [Option.some.injEq, Prod.mk.injEq] at h1
  exact h1.1.symm

theorem ptrs_block (std : Std Pid) (c : Str × Collection) (a : Nat) (h : a ∈ ptrsOf (c.2.write std)) : a ∈ ptrsOf (blockItems (colBlock std c)) := by
  unfold blockItems
  simp only [ptrsOf_append, List.mem_append]
  exact Or.inr h

theorem mapPtr_loadCols (std : Std Pid) (want : Str → Bool) (f g T : Nat → Nat) (n : Nat) (cs : List (Str × Collection))
    (hok : ∀ c ∈ cs, CollectionOk std (kindD c.2) c.2) (h : ∀ a ∈ ptrsOf (blocksItems (cs.map (colBlock std))), g (f a) = T a) :
    (loadCols std want f n cs).map (fun c => (c.1, c.2.mapPtr g)) = loadCols std want T n cs := by
  induction cs generalizing n with
  | nil => rfl
  | cons c cs ih =>
    have hb : ∀ a ∈ ptrsOf (c.2.write std), g (f a) = T a := fun a ha =>
      h a (by simp only [List.map_cons, blocksItems, List.flatMap_cons, ptrsOf_append, List.mem_append]; exact Or.inl (ptrs_block std c a ha))
    have ih := fun n => ih n (fun x hx => hok x (by simp [hx])) fun a ha =>
      h a (by simp only [List.map_cons, blocksItems, List.flatMap_cons, ptrsOf_append, List.mem_append]; exact Or.inr ha)
    simp only [loadCols]
    split
    · rw [List.map_cons, ih, mapPtr_loadCol std _ f g n c.2 (hok c (by simp)), loadCol_congr std _ _ T n c.2 (hok c (by simp)) hb]
    · exact ih _

theorem eventBlocks_eq (std : Std Pid) (only : List Str) (cols : List (Str × Collection)) :
    eventBlocks std only cols = (storedCols only cols).map (colBlock std) := by
  unfold eventBlocks storedCols
  congr 1
  refine List.filter_congr fun c _ => ?_
  simp only [Collection.isTransient, notSelected]
  cases only.isEmpty <;> simp

end Lcio
