import Verif.Spec.Ext
/-
Lemmas for extensions of objects.
-/
namespace Props
open Sio Spec Lcio

/-! ## Lists of objects that are deleted -/

theorem deleteObjects_ok : ∀ (xs dead : List Nat), (xs.filter (· ≠ 0)).Nodup → (∀ x ∈ xs, x ≠ 0 → x ∉ dead) →
    deleteObjects xs dead = .ok (dead ++ xs.filter (· ≠ 0)) := by
  intro xs
  induction xs with
  | nil => intro dead _ _; simp [deleteObjects]
  | cons x xs ih =>
    intro dead hn hd
    by_cases h0 : x = 0
    · subst h0
      rw [List.filter_cons_of_neg (by simp)] at hn
      simp only [deleteObjects, if_true]
      rw [ih dead hn (fun y hy => hd y (by simp [hy]))]
      simp
    · rw [List.filter_cons_of_pos (by simpa using h0), List.nodup_cons] at hn
      have hx := hd x (by simp) h0
      simp only [deleteObjects, if_neg h0, List.contains_eq_mem, decide_eq_true_eq, hx, if_false]
      rw [ih (dead ++ [x]) hn.2]
      · simp [h0]
      · intro y hy hy0 hm
        rcases List.mem_append.1 hm with h | h
        · exact hd y (by simp [hy]) hy0 h
        · rw [List.mem_singleton] at h
          subst h
          exact hn.1 (List.mem_filter.2 ⟨hy, by simpa using hy0⟩)

/-! ## The invariant -/

/-- Places, objects and what was deleted fit together. `G`: what was given away. -/
structure ExtInv (K : Nat → ExtKind) (w : ExtWorld) (G : List Nat) : Prop where
  place : ∀ (a : Nat) (o : ExtObj), w.obj a = some o → ∀ e ∈ o.ext, ∃ l, w.places[e.2]? = some (e.1, l)
  distinct : ∀ (a : Nat) (o : ExtObj), w.obj a = some o → (o.ext.map (·.1)).Nodup ∧ (o.ext.map (·.2)).Nodup
  given : ∀ (h : Nat) (p : Nat × List Nat), w.places[h]? = some p → (K p.1).owned = true → ∀ x ∈ p.2, x ≠ 0 → x ∈ G
  once : ∀ (h : Nat) (p : Nat × List Nat), w.places[h]? = some p → (K p.1).owned = true → (p.2.filter (· ≠ 0)).Nodup
  apart : ∀ (h h' : Nat) (p p' : Nat × List Nat), w.places[h]? = some p → w.places[h']? = some p' → (K p.1).owned = true → (K p'.1).owned = true →
    ∀ x ∈ p.2, x ≠ 0 → x ∈ p'.2 → h = h'
  gone : ∀ x ∈ w.dead, ∃ (h : Nat) (p : Nat × List Nat), w.places[h]? = some p ∧ (K p.1).owned = true ∧ x ∈ p.2 ∧ w.used h = false
  nonzero : ∀ x ∈ w.dead, x ≠ 0
  dead : w.dead.Nodup

theorem obj_some {w : ExtWorld} {a : Nat} {o : ExtObj} : w.obj a = some o ↔ w.objs[a]? = some (some o) := by
  unfold ExtWorld.obj
  cases h : w.objs[a]? with
  | none => simp
  | some x => cases x <;> simp

theorem used_iff {w : ExtWorld} {h : Nat} : w.used h = true ↔ ∃ a o, w.obj a = some o ∧ h ∈ o.ext.map (·.2) := by
  unfold ExtWorld.used
  rw [List.any_eq_true]
  constructor
  · rintro ⟨x, hx, hy⟩
    cases x with
    | none => cases hy
    | some o =>
      obtain ⟨a, ha⟩ := List.mem_iff_getElem?.1 hx
      refine ⟨a, o, obj_some.2 ha, ?_⟩
      obtain ⟨e, he, hh⟩ := List.any_eq_true.1 hy
      exact List.mem_map.2 ⟨e, he, by simpa using hh⟩
  · rintro ⟨a, o, ha, hm⟩
    refine ⟨some o, List.mem_iff_getElem?.2 ⟨a, obj_some.1 ha⟩, ?_⟩
    obtain ⟨e, he, rfl⟩ := List.mem_map.1 hm
    exact List.any_eq_true.2 ⟨e, he, by simp⟩

/-- The object at an address after a change of one. -/
theorem obj_set {w : ExtWorld} {a : Nat} (ha : a < w.objs.length) (x : Option ExtObj) (ps : List (Nat × List Nat)) (d : List Nat) (b : Nat) :
    (⟨w.objs.set a x, ps, d⟩ : ExtWorld).obj b = if b = a then x else w.obj b := by
  unfold ExtWorld.obj
  simp only
  by_cases h : b = a
  · subst h; simp [ha]
  · rw [List.getElem?_set_ne (Ne.symm h), if_neg h]

theorem obj_add {w : ExtWorld} (o : ExtObj) (ps : List (Nat × List Nat)) (d : List Nat) (b : Nat) :
    (⟨w.objs ++ [some o], ps, d⟩ : ExtWorld).obj b = if b = w.objs.length then some o else w.obj b := by
  unfold ExtWorld.obj
  simp only
  by_cases h : b = w.objs.length
  · subst h; simp
  · rw [if_neg h]
    by_cases h' : b < w.objs.length
    · rw [List.getElem?_append_left h']
    · rw [List.getElem?_eq_none (by simp; omega), List.getElem?_eq_none (by omega)]

theorem obj_lt {w : ExtWorld} {a : Nat} {o : ExtObj} (h : w.obj a = some o) : a < w.objs.length := by
  have := obj_some.1 h
  exact (List.getElem?_eq_some_iff.1 this).1

variable {K : Nat → ExtKind} {w : ExtWorld} {G : List Nat}

theorem init_zero (k : ExtKind) : ∀ x ∈ k.init, x = 0 := by
  intro x hx
  unfold ExtKind.init at hx
  split at hx <;> simp_all

/-- A new place for an object. -/
theorem ExtInv.alloc (i : ExtInv K w G) {a : Nat} {o : ExtObj} (ha : w.obj a = some o) (tag : Nat) (hnew : tag ∉ o.ext.map (·.1)) :
    ExtInv K ⟨w.objs.set a (some { o with ext := o.ext ++ [(tag, w.places.length)] }), w.places ++ [(tag, (K tag).init)], w.dead⟩ G := by
  have hobj := fun b => obj_set (obj_lt ha) (some { o with ext := o.ext ++ [(tag, w.places.length)] }) (w.places ++ [(tag, (K tag).init)]) w.dead b
  have hold : ∀ (h : Nat) (p : Nat × List Nat), w.places[h]? = some p → (w.places ++ [(tag, (K tag).init)])[h]? = some p := by
    intro h p hp
    rw [List.getElem?_append_left (List.getElem?_eq_some_iff.1 hp).1]
    exact hp
  have hcase : ∀ (h : Nat) (p : Nat × List Nat), (w.places ++ [(tag, (K tag).init)])[h]? = some p → w.places[h]? = some p ∨ (∀ x ∈ p.2, x = 0) := by
    intro h p hp
    by_cases hl : h < w.places.length
    · rw [List.getElem?_append_left hl] at hp; exact .inl hp
    · rw [List.getElem?_append_right (by omega)] at hp
      obtain ⟨hq, rfl⟩ := List.getElem?_eq_some_iff.1 hp
      right
      simp only [List.length_singleton] at hq
      have : h - w.places.length = 0 := by omega
      simp only [this, List.getElem_cons_zero]
      exact init_zero _
  have hlt : ∀ e ∈ o.ext, e.2 < w.places.length := by
    intro e he
    obtain ⟨l, hl⟩ := i.place a o ha e he
    exact (List.getElem?_eq_some_iff.1 hl).1
  refine ⟨?_, ?_, ?_, ?_, ?_, ?_, i.nonzero, i.dead⟩
  · intro b o' hb e he
    rw [hobj] at hb
    by_cases hba : b = a
    · rw [if_pos hba] at hb
      cases hb
      rcases List.mem_append.1 he with he | he
      · obtain ⟨l, hl⟩ := i.place a o ha e he
        exact ⟨l, hold _ _ hl⟩
      · rw [List.mem_singleton] at he
        subst he
        exact ⟨(K tag).init, by simp⟩
    · rw [if_neg hba] at hb
      obtain ⟨l, hl⟩ := i.place b o' hb e he
      exact ⟨l, hold _ _ hl⟩
  · intro b o' hb
    rw [hobj] at hb
    by_cases hba : b = a
    · rw [if_pos hba] at hb
      cases hb
      obtain ⟨d1, d2⟩ := i.distinct a o ha
      simp only [List.map_append, List.map_cons, List.map_nil]
      constructor
      · exact List.nodup_append.2 ⟨d1, by simp, by intro x hx y hy e; simp at hy; subst hy; subst e; exact hnew hx⟩
      · refine List.nodup_append.2 ⟨d2, by simp, ?_⟩
        intro x hx y hy e
        simp at hy
        obtain ⟨z, hz, hz2⟩ := List.mem_map.1 hx
        have := hlt z hz
        omega
    · rw [if_neg hba] at hb
      exact i.distinct b o' hb
  · intro h p hp ho x hx h0
    rcases hcase h p hp with h1 | h1
    · exact i.given h p h1 ho x hx h0
    · exact absurd (h1 x hx) h0
  · intro h p hp ho
    rcases hcase h p hp with h1 | h1
    · exact i.once h p h1 ho
    · have : p.2.filter (· ≠ 0) = [] := by
        rw [List.filter_eq_nil_iff]; intro x hx; simp [h1 x hx]
      rw [this]; exact List.nodup_nil
  · intro h h' p p' hp hp' ho ho' x hx h0 hx'
    rcases hcase h p hp with h1 | h1
    · rcases hcase h' p' hp' with h2 | h2
      · exact i.apart h h' p p' h1 h2 ho ho' x hx h0 hx'
      · exact absurd (h2 x hx') h0
    · exact absurd (h1 x hx) h0
  · intro x hx
    obtain ⟨h, p, h1, h2, h3, h4⟩ := i.gone x hx
    refine ⟨h, p, hold _ _ h1, h2, h3, ?_⟩
    rw [Bool.eq_false_iff] at h4 ⊢
    intro hu
    apply h4
    obtain ⟨b, o', hb, hm⟩ := used_iff.1 hu
    rw [hobj] at hb
    by_cases hba : b = a
    · rw [if_pos hba] at hb
      cases hb
      rw [List.map_append] at hm
      rcases List.mem_append.1 hm with hm | hm
      · exact used_iff.2 ⟨a, o, ha, hm⟩
      · simp at hm
        have := (List.getElem?_eq_some_iff.1 h1).1
        omega
    · rw [if_neg hba] at hb
      exact used_iff.2 ⟨b, o', hb, hm⟩

/-- What an object has as an extension: what is in its place, or what will be in a new one. -/
def extOf (K : Nat → ExtKind) (w : ExtWorld) (o : ExtObj) (tag : Nat) : List Nat :=
  match o.ext.find? (·.1 == tag) with
  | some e => ((w.places[e.2]?).map (·.2)).getD []
  | none => (K tag).init

theorem find_tag {o : ExtObj} {tag : Nat} {e : Nat × Nat} (h : o.ext.find? (·.1 == tag) = some e) : e ∈ o.ext ∧ e.1 = tag :=
  ⟨List.mem_of_find?_eq_some h, by simpa using List.find?_some h⟩

/-- The place of an extension, and what is there. -/
theorem ExtInv.ptr (i : ExtInv K w G) {a : Nat} {o : ExtObj} (ha : w.obj a = some o) (tag : Nat) :
    ∃ (h : Nat) (v : ExtWorld) (o' : ExtObj), w.ptr K a o tag = (h, v) ∧ ExtInv K v G ∧ v.dead = w.dead ∧ v.places[h]? = some (tag, extOf K w o tag) ∧ v.obj a = some o' ∧ (tag, h) ∈ o'.ext ∧
      v.objs.map Option.isSome = w.objs.map Option.isSome ∧
      ((v = w ∧ o' = o) ∨ (h = w.places.length ∧ tag ∉ o.ext.map (·.1) ∧ o' = { o with ext := o.ext ++ [(tag, w.places.length)] } ∧
        v = ⟨w.objs.set a (some o'), w.places ++ [(tag, (K tag).init)], w.dead⟩)) := by
  unfold ExtWorld.ptr extOf
  cases hf : o.ext.find? (·.1 == tag) with
  | some e =>
    obtain ⟨h1, h2⟩ := find_tag hf
    obtain ⟨l, hl⟩ := i.place a o ha e h1
    refine ⟨e.2, w, o, rfl, i, rfl, ?_, ha, ?_, rfl, .inl ⟨rfl, rfl⟩⟩
    · simp [hl, h2]
    · rw [← h2]; exact h1
  | none =>
    have hnew : tag ∉ o.ext.map (·.1) := by
      intro hm
      obtain ⟨e, he, he2⟩ := List.mem_map.1 hm
      have := List.find?_eq_none.1 hf e he
      simp [he2] at this
    refine ⟨w.places.length, _, _, rfl, i.alloc ha tag hnew, rfl, by simp, ?_, ?_, ?_, .inr ⟨rfl, hnew, rfl, rfl⟩⟩
    · rw [obj_set (obj_lt ha), if_pos rfl]
    · simp
    · apply List.ext_getElem?
      intro n
      rw [List.getElem?_map, List.getElem?_map]
      by_cases hn : n = a
      · subst hn
        rw [obj_some.1 ha]
        simp [obj_lt ha]
      · rw [List.getElem?_set_ne (Ne.symm hn)]

/-- A new thing is put into a place. -/
theorem ExtInv.put (i : ExtInv K w G) {h tag : Nat} {l : List Nat} (hp : w.places[h]? = some (tag, l)) (hu : w.used h = true) (x : Nat) (hx : (K tag).owned = true → x ≠ 0 → x ∉ G) (G' : List Nat)
    (hG : ∀ y ∈ G, y ∈ G') (hG' : (K tag).owned = true → x ≠ 0 → x ∈ G') :
    ExtInv K { w with places := w.places.modify h fun p => (p.1, if (K tag).many then p.2 ++ [x] else [x]) } G' := by
  have hget : ∀ n, (w.places.modify h fun p => (p.1, if (K tag).many then p.2 ++ [x] else [x]))[n]? = if n = h then some (tag, if (K tag).many then l ++ [x] else [x]) else w.places[n]? := by
    intro n
    rw [List.getElem?_modify]
    by_cases hn : n = h
    · subst hn; simp [hp]
    · have hn' : ¬ h = n := fun e => hn e.symm
      simp only [if_neg hn', if_neg hn]
      cases w.places[n]? <;> rfl
  have hmem : ∀ y ∈ (if (K tag).many then l ++ [x] else [x]), y = x ∨ y ∈ l := by
    intro y hy
    split at hy
    · rcases List.mem_append.1 hy with h | h
      · exact .inr h
      · exact .inl (by simpa using h)
    · exact .inl (by simpa using hy)
  refine ⟨?_, i.distinct, ?_, ?_, ?_, ?_, i.nonzero, i.dead⟩
  · intro a o ha e he
    obtain ⟨l', hl'⟩ := i.place a o ha e he
    rw [hget]
    by_cases hn : e.2 = h
    · rw [if_pos hn]
      rw [hn, hp] at hl'
      cases hl'
      exact ⟨_, rfl⟩
    · rw [if_neg hn]; exact ⟨l', hl'⟩
  · intro n p hn ho y hy h0
    rw [hget] at hn
    by_cases hnh : n = h
    · rw [if_pos hnh] at hn
      cases hn
      rcases hmem y hy with rfl | hy
      · exact hG' ho h0
      · exact hG _ (i.given h _ hp ho y hy h0)
    · rw [if_neg hnh] at hn
      exact hG _ (i.given n p hn ho y hy h0)
  · intro n p hn ho
    rw [hget] at hn
    by_cases hnh : n = h
    · rw [if_pos hnh] at hn
      cases hn
      have ho' : (K tag).owned = true := ho
      have h1 := i.once h _ hp ho'
      by_cases hm : (K tag).many
      · simp only [hm, if_true, List.filter_append]
        refine List.nodup_append.2 ⟨h1, ?_, ?_⟩
        · exact (show [x].Nodup by simp).sublist List.filter_sublist
        · intro y hy z hz e
          have hz1 := (List.mem_filter.1 hz).1
          have hz2 := (List.mem_filter.1 hz).2
          rw [List.mem_singleton] at hz1
          subst hz1
          subst e
          exact hx ho' (by simpa using hz2) (i.given h _ hp ho' _ (List.mem_filter.1 hy).1 (by simpa using hz2))
      · simp only [hm]
        exact (show [x].Nodup by simp).sublist List.filter_sublist
    · rw [if_neg hnh] at hn
      exact i.once n p hn ho
  · have key : ∀ (n : Nat) (p : Nat × List Nat), n ≠ h → w.places[n]? = some p → (K p.1).owned = true → (K tag).owned = true → ∀ y ∈ p.2, y ≠ 0 → y ∈ (if (K tag).many then l ++ [x] else [x]) → False := by
      intro n p hn hq ho ho' y hy h0 hy'
      rcases hmem y hy' with rfl | hy'
      · exact hx ho' h0 (i.given n p hq ho _ hy h0)
      · exact hn (i.apart n h p _ hq hp ho ho' y hy h0 hy')
    intro n n' p p' hn hn' ho ho' y hy h0 hy'
    rw [hget] at hn hn'
    by_cases hnh : n = h <;> by_cases hnh' : n' = h
    · omega
    · rw [if_pos hnh] at hn; rw [if_neg hnh'] at hn'; cases hn
      exact (key n' p' hnh' hn' ho' ho y hy' h0 hy).elim
    · rw [if_neg hnh] at hn; rw [if_pos hnh'] at hn'; cases hn'
      exact (key n p hnh hn ho ho' y hy h0 hy').elim
    · rw [if_neg hnh] at hn; rw [if_neg hnh'] at hn'
      exact i.apart n n' p p' hn hn' ho ho' y hy h0 hy'
  · intro y hy
    obtain ⟨n, p, h1, h2, h3, h4⟩ := i.gone y hy
    refine ⟨n, p, ?_, h2, h3, h4⟩
    rw [hget, if_neg]
    · exact h1
    · rintro rfl
      rw [hu] at h4; cases h4

/-- One object is changed or deleted, so that no place is used that was not used before. -/
theorem ExtInv.shrink (i : ExtInv K w G) {a : Nat} (ha : a < w.objs.length) (x : Option ExtObj) (hx : ∀ o, x = some o → ∃ b o', w.obj b = some o' ∧ o.ext = o'.ext) :
    ExtInv K { w with objs := w.objs.set a x } G ∧ ∀ h, ({ w with objs := w.objs.set a x } : ExtWorld).used h = true → w.used h = true := by
  have hobj := fun b => obj_set ha x w.places w.dead b
  have hfrom : ∀ b o, ({ w with objs := w.objs.set a x } : ExtWorld).obj b = some o → ∃ b o', w.obj b = some o' ∧ o.ext = o'.ext := by
    intro b o hb
    rw [hobj] at hb
    by_cases hba : b = a
    · rw [if_pos hba] at hb; exact hx o hb
    · rw [if_neg hba] at hb; exact ⟨b, o, hb, rfl⟩
  have hu : ∀ h, ({ w with objs := w.objs.set a x } : ExtWorld).used h = true → w.used h = true := by
    intro h hh
    obtain ⟨b, o, hb, hm⟩ := used_iff.1 hh
    obtain ⟨b', o', hb', e⟩ := hfrom b o hb
    exact used_iff.2 ⟨b', o', hb', e ▸ hm⟩
  refine ⟨⟨?_, ?_, i.given, i.once, i.apart, ?_, i.nonzero, i.dead⟩, hu⟩
  · intro b o hb
    obtain ⟨b', o', hb', e⟩ := hfrom b o hb
    rw [e]
    exact i.place b' o' hb'
  · intro b o hb
    obtain ⟨b', o', hb', e⟩ := hfrom b o hb
    rw [e]
    exact i.distinct b' o' hb'
  · intro y hy
    obtain ⟨h, p, h1, h2, h3, h4⟩ := i.gone y hy
    refine ⟨h, p, h1, h2, h3, ?_⟩
    rw [Bool.eq_false_iff] at h4 ⊢
    exact fun hh => h4 (hu h hh)

/-- A new object. -/
theorem ExtInv.add (i : ExtInv K w G) (o : ExtObj) (ho : o.ext = [] ∨ ∃ b o', w.obj b = some o' ∧ o.ext = o'.ext) : ExtInv K { w with objs := w.objs ++ [some o] } G := by
  have hobj := fun b => obj_add o w.places w.dead (w := w) b
  have hcase : ∀ b o', ({ w with objs := w.objs ++ [some o] } : ExtWorld).obj b = some o' → o'.ext = [] ∨ ∃ b o'', w.obj b = some o'' ∧ o'.ext = o''.ext := by
    intro b o' hb
    rw [hobj] at hb
    by_cases hba : b = w.objs.length
    · rw [if_pos hba] at hb; cases hb; exact ho
    · rw [if_neg hba] at hb; exact .inr ⟨b, o', hb, rfl⟩
  refine ⟨?_, ?_, i.given, i.once, i.apart, ?_, i.nonzero, i.dead⟩
  · intro b o' hb
    rcases hcase b o' hb with e | ⟨b', o'', hb', e⟩
    · rw [e]; simp
    · rw [e]; exact i.place b' o'' hb'
  · intro b o' hb
    rcases hcase b o' hb with e | ⟨b', o'', hb', e⟩
    · rw [e]; simp
    · rw [e]; exact i.distinct b' o'' hb'
  · intro y hy
    obtain ⟨h, p, h1, h2, h3, h4⟩ := i.gone y hy
    refine ⟨h, p, h1, h2, h3, ?_⟩
    rw [Bool.eq_false_iff] at h4 ⊢
    intro hh
    apply h4
    obtain ⟨b, o', hb, hm⟩ := used_iff.1 hh
    rcases hcase b o' hb with e | ⟨b', o'', hb', e⟩
    · rw [e] at hm; cases hm
    · exact used_iff.2 ⟨b', o'', hb', e ▸ hm⟩

theorem owns_mem {h x : Nat} (hx : x ∈ w.owns K h) : w.used h = false ∧ ∃ p, w.places[h]? = some p ∧ (K p.1).owned = true ∧ x ∈ p.2 := by
  unfold ExtWorld.owns at hx
  split at hx
  · cases hx
  · rename_i hu
    refine ⟨by simpa using hu, ?_⟩
    cases hp : w.places[h]? with
    | none => rw [hp] at hx; cases hx
    | some p =>
      rw [hp] at hx
      simp only at hx
      split at hx
      · exact ⟨p, rfl, by assumption, hx⟩
      · cases hx

/-- Shared pointers are given up: nothing is deleted twice. -/
theorem ExtInv.release (i : ExtInv K w G) (hs : List Nat) (hn : hs.Nodup) (hl : ∀ h ∈ hs, ∀ x ∈ w.owns K h, x ≠ 0 → x ∉ w.dead) :
    w.release K hs = .ok { w with dead := w.dead ++ (hs.flatMap (w.owns K)).filter (· ≠ 0) } ∧ ExtInv K { w with dead := w.dead ++ (hs.flatMap (w.owns K)).filter (· ≠ 0) } G := by
  have hnd : ((hs.flatMap (w.owns K)).filter (· ≠ 0)).Nodup := by
    clear hl
    induction hs with
    | nil => simp
    | cons h hs ih =>
      rw [List.nodup_cons] at hn
      rw [List.flatMap_cons, List.filter_append]
      refine List.nodup_append.2 ⟨?_, ih hn.2, ?_⟩
      · unfold ExtWorld.owns
        split
        · simp
        · split
          · split
            · exact i.once h _ (by assumption) (by assumption)
            · simp
          · simp
      · intro x hx y hy e
        subst e
        obtain ⟨hx1, hx2⟩ := List.mem_filter.1 hx
        obtain ⟨hy1, -⟩ := List.mem_filter.1 hy
        obtain ⟨h', hh', hy2⟩ := List.mem_flatMap.1 hy1
        obtain ⟨-, p, p1, p2, p3⟩ := owns_mem hx1
        obtain ⟨-, q, q1, q2, q3⟩ := owns_mem hy2
        have := i.apart h h' p q p1 q1 p2 q2 x p3 (by simpa using hx2) q3
        subst this
        exact hn.1 hh'
  have hok := deleteObjects_ok (hs.flatMap (w.owns K)) w.dead hnd (by
    intro x hx h0
    obtain ⟨h, hh, hx⟩ := List.mem_flatMap.1 hx
    exact hl h hh x hx h0)
  refine ⟨by unfold ExtWorld.release; rw [hok]; rfl, i.place, i.distinct, i.given, i.once, i.apart, ?_, ?_, ?_⟩
  · intro x hx
    rcases List.mem_append.1 hx with hx | hx
    · exact i.gone x hx
    · obtain ⟨h, -, hx⟩ := List.mem_flatMap.1 (List.mem_filter.1 hx).1
      obtain ⟨hu, p, p1, p2, p3⟩ := owns_mem hx
      exact ⟨h, p, p1, p2, p3, hu⟩
  · intro x hx
    rcases List.mem_append.1 hx with hx | hx
    · exact i.nonzero x hx
    · simpa using (List.mem_filter.1 hx).2
  · refine List.nodup_append.2 ⟨i.dead, hnd, ?_⟩
    intro x hx y hy e
    subst e
    obtain ⟨hy1, hy2⟩ := List.mem_filter.1 hy
    obtain ⟨h, hh, hy3⟩ := List.mem_flatMap.1 hy1
    exact hl h hh x hy3 (by simpa using hy2) hx

/-- What belongs to a place that is used was not deleted. -/
theorem ExtInv.alive (i : ExtInv K w G) {h : Nat} {p : Nat × List Nat} (hp : w.places[h]? = some p) (ho : (K p.1).owned = true) (hu : w.used h = true) : ∀ x ∈ p.2, x ∉ w.dead := by
  intro x hx hd
  obtain ⟨h', p', h1, h2, h3, h4⟩ := i.gone x hd
  have := i.apart h h' p p' hp h1 ho h2 x hx (i.nonzero x hd) h3
  subst this
  rw [hu] at h4
  cases h4

/-- An object is changed or deleted, and gives up its places. -/
theorem ExtInv.drop (i : ExtInv K w G) {a : Nat} {o : ExtObj} (ha : w.obj a = some o) (x : Option ExtObj) (hx : ∀ o, x = some o → ∃ b o', w.obj b = some o' ∧ o.ext = o'.ext) :
    ∃ v, ({ w with objs := w.objs.set a x } : ExtWorld).release K (o.ext.map (·.2)) = .ok v ∧ ExtInv K v G ∧ v.objs = w.objs.set a x ∧ v.places = w.places ∧
      v.dead = w.dead ++ ((o.ext.map (·.2)).flatMap (({ w with objs := w.objs.set a x } : ExtWorld).owns K)).filter (· ≠ 0) := by
  obtain ⟨i1, -⟩ := i.shrink (obj_lt ha) x hx
  obtain ⟨r1, r2⟩ := i1.release (o.ext.map (·.2)) (i.distinct a o ha).2 (by
    intro h hh y hy _
    obtain ⟨-, p, p1, p2, p3⟩ := owns_mem hy
    exact i.alive p1 p2 (used_iff.2 ⟨a, o, ha, hh⟩) y p3)
  exact ⟨_, r1, r2, rfl, rfl, rfl⟩

theorem flags_obj {l : List Bool} (h : w.objs.map Option.isSome = l) {a : Nat} (ha : l[a]? = some true) : ∃ o, w.obj a = some o := by
  rw [← h, List.getElem?_map] at ha
  cases hx : w.objs[a]? with
  | none => rw [hx] at ha; cases ha
  | some x =>
    rw [hx] at ha
    cases x with
    | none => cases ha
    | some o => exact ⟨o, obj_some.2 hx⟩

theorem wellUsed_cons {l : List Bool} {c : ExtCall} {cs : List ExtCall} (h : wellUsed l (c :: cs)) : wellUsed l [c] ∧ wellUsed (flagsAfter l c) cs := by
  cases c <;> simp_all [wellUsed, flagsAfter]

/-- One call. -/
theorem ExtInv.call (i : ExtInv K w G) (c : ExtCall) (hu : wellUsed (w.objs.map Option.isSome) [c]) (hG : (G ++ givenAway K [c]).Nodup) :
    ∃ r v, w.call K c = .ok (r, v) ∧ ExtInv K v (G ++ givenAway K [c]) ∧ v.objs.map Option.isSome = flagsAfter (w.objs.map Option.isSome) c := by
  cases c with
  | make track =>
    refine ⟨_, _, rfl, ?_, by simp [flagsAfter]⟩
    simpa [givenAway] using i.add { track := track } (.inl rfl)
  | get a tag =>
    obtain ⟨o, ho⟩ := flags_obj rfl hu.1
    obtain ⟨h, v, o', e, iv, -, -, -, -, hf, -⟩ := i.ptr ho tag
    simp only [ExtWorld.call, ho, e]
    exact ⟨_, _, rfl, by simpa [givenAway] using iv, hf⟩
  | put a tag x =>
    obtain ⟨o, ho⟩ := flags_obj rfl hu.1
    obtain ⟨h, v, o', e, iv, -, hp, hv, hm, hf, -⟩ := i.ptr ho tag
    simp only [ExtWorld.call, ho, e]
    refine ⟨_, _, rfl, ?_, hf⟩
    refine iv.put hp (used_iff.2 ⟨a, o', hv, List.mem_map.2 ⟨_, hm, rfl⟩⟩) x ?_ _ (fun y hy => List.mem_append_left _ hy) ?_
    · intro h1 h2 hx
      simp only [givenAway, h1, h2, ne_eq, not_false_eq_true, and_self, if_true] at hG
      exact (List.nodup_append.1 hG).2.2 x hx x (by simp) rfl
    · intro h1 h2
      simp [givenAway, h1, h2]
  | copy a =>
    obtain ⟨o, ho⟩ := flags_obj rfl hu.1
    simp only [ExtWorld.call, ho]
    refine ⟨_, _, rfl, ?_, by simp [flagsAfter]⟩
    have := i.add { track := o.track, ext := if o.track then [] else o.ext } (by
      cases o.track
      · exact .inr ⟨a, o, ho, rfl⟩
      · exact .inl rfl)
    simpa [givenAway] using this
  | assign a b =>
    obtain ⟨o, ho⟩ := flags_obj rfl hu.1
    obtain ⟨o', ho'⟩ := flags_obj rfl hu.2.1
    simp only [ExtWorld.call, ho, ho']
    by_cases ht : o.track = true
    · rw [if_pos ht]
      exact ⟨_, _, rfl, by simpa [givenAway] using i, rfl⟩
    · rw [if_neg ht]
      obtain ⟨v, e, iv, v1, -, -⟩ := i.drop ho (some { o with ext := o'.ext }) (by
        intro q hq; cases hq; exact ⟨b, o', ho', rfl⟩)
      rw [e]
      refine ⟨_, _, rfl, by simpa [givenAway] using iv, ?_⟩
      rw [v1]
      apply List.ext_getElem?
      intro n
      simp only [flagsAfter]
      rw [List.getElem?_map, List.getElem?_map]
      by_cases hn : n = a
      · subst hn
        rw [obj_some.1 ho]
        simp [obj_lt ho]
      · rw [List.getElem?_set_ne (Ne.symm hn)]
  | delete a =>
    obtain ⟨o, ho⟩ := flags_obj rfl hu.1
    simp only [ExtWorld.call, ho]
    obtain ⟨v, e, iv, v1, -, -⟩ := i.drop ho none (by intro q hq; cases hq)
    rw [e]
    refine ⟨_, _, rfl, by simpa [givenAway] using iv, ?_⟩
    rw [v1]
    simp only [flagsAfter, List.map_set]
    rfl

theorem given_cons (c : ExtCall) (cs : List ExtCall) : givenAway K (c :: cs) = givenAway K [c] ++ givenAway K cs := by
  cases c <;> simp only [givenAway, List.nil_append]
  split <;> simp

theorem given_append (cs ds : List ExtCall) : givenAway K (cs ++ ds) = givenAway K cs ++ givenAway K ds := by
  induction cs with
  | nil => rfl
  | cons c cs ih => rw [List.cons_append, given_cons, ih, given_cons c cs, List.append_assoc]

theorem run_append (cs ds : List ExtCall) : ∀ w : ExtWorld, w.run K (cs ++ ds) = match w.run K cs with
    | .error e => .error e
    | .ok (r, v) => match v.run K ds with
      | .error e => .error e
      | .ok (s, u) => .ok (r ++ s, u) := by
  induction cs with
  | nil =>
    intro w
    simp only [List.nil_append, ExtWorld.run]
    cases w.run K ds with
    | error e => rfl
    | ok x => rfl
  | cons c cs ih =>
    intro w
    simp only [List.cons_append, ExtWorld.run]
    cases w.call K c with
    | error e => rfl
    | ok x =>
      obtain ⟨r, v⟩ := x
      simp only [ih v]
      cases v.run K cs with
      | error e => rfl
      | ok y =>
        obtain ⟨rs, u⟩ := y
        simp only
        cases u.run K ds with
        | error e => rfl
        | ok z => rfl

theorem given_nonzero (cs : List ExtCall) : ∀ x ∈ givenAway K cs, x ≠ 0 := by
  induction cs with
  | nil => intro x hx; cases hx
  | cons c cs ih =>
    intro x hx
    rw [given_cons] at hx
    rcases List.mem_append.1 hx with hx | hx
    · cases c with
      | put a tag y =>
        simp only [givenAway] at hx
        split at hx
        · rename_i h
          rw [List.mem_singleton] at hx
          subst hx
          exact h.2
        · cases hx
      | _ => cases hx
    · exact ih x hx

/-- Calls. -/
theorem ExtInv.run (cs : List ExtCall) : ∀ {w : ExtWorld} {G : List Nat}, ExtInv K w G → wellUsed (w.objs.map Option.isSome) cs → (G ++ givenAway K cs).Nodup →
    ∃ r v, w.run K cs = .ok (r, v) ∧ ExtInv K v (G ++ givenAway K cs) ∧ v.objs.map Option.isSome = cs.foldl flagsAfter (w.objs.map Option.isSome) := by
  induction cs with
  | nil => intro w G i _ _; exact ⟨_, _, rfl, by simpa [givenAway] using i, rfl⟩
  | cons c cs ih =>
    intro w G i hu hG
    rw [given_cons, ← List.append_assoc] at hG
    obtain ⟨u1, u2⟩ := wellUsed_cons hu
    obtain ⟨r, v, h1, h2, h3⟩ := i.call c u1 (List.nodup_append.1 hG).1
    rw [← h3] at u2
    obtain ⟨rs, v', k1, k2, k3⟩ := ih h2 u2 hG
    refine ⟨r :: rs, v', ?_, ?_, ?_⟩
    · simp only [ExtWorld.run, h1, k1]
    · rw [given_cons, ← List.append_assoc]; exact k2
    · rw [k3, h3]; rfl

theorem ext_start : ExtInv K {} [] := by
  refine ⟨?_, ?_, ?_, ?_, ?_, ?_, ?_, List.nodup_nil⟩ <;> simp [ExtWorld.obj]

/-! ## Values -/

theorem attached_cons (a tag : Nat) (l : List Nat) (c : ExtCall) (cs : List ExtCall) : attached K a tag l (c :: cs) = attached K a tag (attached K a tag l [c]) cs := by
  cases c <;> rfl

theorem attached_append (a tag : Nat) (cs ds : List ExtCall) : ∀ l, attached K a tag l (cs ++ ds) = attached K a tag (attached K a tag l cs) ds := by
  induction cs with
  | nil => intro l; rfl
  | cons c cs ih => intro l; rw [List.cons_append, attached_cons, ih, attached_cons a tag l c cs]

/-- Every object has places of its own. `A`: what is attached. -/
structure OwnInv (K : Nat → ExtKind) (w : ExtWorld) (A : Nat → Nat → List Nat) : Prop where
  apart : ∀ (a b : Nat) (o o' : ExtObj), w.obj a = some o → w.obj b = some o' → a ≠ b → ∀ h ∈ o.ext.map (·.2), h ∉ o'.ext.map (·.2)
  val : ∀ (a : Nat) (o : ExtObj), w.obj a = some o → ∀ tag, extOf K w o tag = A a tag
  new : ∀ a, w.objs.length ≤ a → ∀ tag, A a tag = (K tag).init

variable {A : Nat → Nat → List Nat}

/-- A tag leads to one place. -/
theorem find_of_mem {o : ExtObj} (hd : (o.ext.map (·.1)).Nodup) {e : Nat × Nat} (he : e ∈ o.ext) : o.ext.find? (·.1 == e.1) = some e := by
  generalize o.ext = l at hd he
  induction l with
  | nil => cases he
  | cons x l ih =>
    rw [List.map_cons, List.nodup_cons] at hd
    rcases List.mem_cons.1 he with rfl | he
    · simp
    · rw [List.find?_cons]
      have : (x.1 == e.1) = false := by
        rw [beq_eq_false_iff_ne]
        intro h
        exact hd.1 (List.mem_map.2 ⟨e, he, h.symm⟩)
      rw [this]
      exact ih hd.2 he

/-- Asking for an extension changes nothing that is attached. -/
theorem OwnInv.ptr (n : OwnInv K w A) (i : ExtInv K w G) {a : Nat} {o : ExtObj} (ha : w.obj a = some o) (tag : Nat) : OwnInv K (w.ptr K a o tag).2 A := by
  obtain ⟨h, v, o', e, iv, -, -, hv, -, -, hor⟩ := i.ptr ha tag
  rw [e]
  rcases hor with ⟨rfl, -⟩ | ⟨rfl, hnew, rfl, rfl⟩
  · exact n
  · have hobj := fun b => obj_set (obj_lt ha) (some { o with ext := o.ext ++ [(tag, w.places.length)] }) (w.places ++ [(tag, (K tag).init)]) w.dead b
    have hlt : ∀ b q, w.obj b = some q → ∀ h ∈ q.ext.map (·.2), h < w.places.length := by
      intro b q hb h hh
      obtain ⟨e, he, rfl⟩ := List.mem_map.1 hh
      obtain ⟨l, hl⟩ := i.place b q hb e he
      exact (List.getElem?_eq_some_iff.1 hl).1
    have hcase : ∀ b q, (⟨w.objs.set a (some { o with ext := o.ext ++ [(tag, w.places.length)] }), w.places ++ [(tag, (K tag).init)], w.dead⟩ : ExtWorld).obj b = some q →
        ∃ q', w.obj b = some q' ∧ ∀ h ∈ q.ext.map (·.2), h ∈ q'.ext.map (·.2) ∨ (b = a ∧ h = w.places.length) := by
      intro b q hb
      rw [hobj] at hb
      by_cases hba : b = a
      · rw [if_pos hba] at hb
        cases hb
        refine ⟨o, hba ▸ ha, ?_⟩
        intro h hh
        rw [List.map_append] at hh
        rcases List.mem_append.1 hh with hh | hh
        · exact .inl hh
        · exact .inr ⟨hba, by simpa using hh⟩
      · rw [if_neg hba] at hb
        exact ⟨q, hb, fun h hh => .inl hh⟩
    refine ⟨?_, ?_, by intro b hb; exact n.new b (by simpa using hb)⟩
    · intro b c q q' hb hc hbc h hh hh'
      obtain ⟨r, r1, r2⟩ := hcase b q hb
      obtain ⟨r', r1', r2'⟩ := hcase c q' hc
      rcases r2 h hh with h1 | ⟨h1, h1'⟩ <;> rcases r2' h hh' with h2 | ⟨h2, h2'⟩
      · exact n.apart b c r r' r1 r1' hbc h h1 h2
      · have := hlt b r r1 h h1; omega
      · have := hlt c r' r1' h h2; omega
      · exact hbc (h1.trans h2.symm)
    · have hold : ∀ b q, w.obj b = some q → ∀ t, extOf K ⟨w.objs.set a (some { o with ext := o.ext ++ [(tag, w.places.length)] }), w.places ++ [(tag, (K tag).init)], w.dead⟩ q t = extOf K w q t := by
        intro b q hb t
        unfold extOf
        cases hf : q.ext.find? (·.1 == t) with
        | none => rfl
        | some e =>
          simp only
          rw [List.getElem?_append_left (hlt b q hb _ (List.mem_map.2 ⟨e, (find_tag hf).1, rfl⟩))]
      intro b q hb t
      rw [hobj] at hb
      by_cases hba : b = a
      · rw [if_pos hba] at hb
        cases hb
        rw [hba, ← n.val a o ha t, ← hold a o ha t]
        unfold extOf
        simp only [List.find?_append]
        cases hf : o.ext.find? (·.1 == t) with
        | some e => simp
        | none =>
          simp only [Option.none_or, List.find?_cons, List.find?_nil]
          by_cases ht : tag = t
          · subst ht; simp
          · have : (tag == t) = false := by simpa using ht
            simp [this]
      · rw [if_neg hba] at hb
        rw [hold b q hb, n.val b q hb]

/-- One call that is not a copy. -/
theorem OwnInv.call (n : OwnInv K w A) (i : ExtInv K w G) (c : ExtCall) (hu : wellUsed (w.objs.map Option.isSome) [c]) (hG : (G ++ givenAway K [c]).Nodup) (hc : (∀ a, c ≠ .copy a) ∧ ∀ a b, c ≠ .assign a b)
    {r : List Nat} {v : ExtWorld} (h : w.call K c = .ok (r, v)) : OwnInv K v (fun a tag => attached K a tag (A a tag) [c]) ∧ (∀ a tag, c = .get a tag → r = A a tag) := by
  cases c with
  | make track =>
    cases h
    refine ⟨⟨?_, ?_, ?_⟩, fun a tag e => by cases e⟩
    · intro a b o o' ha hb hab h hh hh'
      rw [obj_add] at ha hb
      by_cases h1 : a = w.objs.length
      · rw [if_pos h1] at ha; cases ha; cases hh
      · by_cases h2 : b = w.objs.length
        · rw [if_pos h2] at hb; cases hb; cases hh'
        · rw [if_neg h1] at ha; rw [if_neg h2] at hb
          exact n.apart a b o o' ha hb hab h hh hh'
    · intro a o ha tag
      rw [obj_add] at ha
      by_cases h1 : a = w.objs.length
      · rw [if_pos h1] at ha; cases ha
        exact (n.new a (by omega) tag).symm
      · rw [if_neg h1] at ha
        exact n.val a o ha tag
    · intro a ha tag
      simp only [List.length_append, List.length_singleton] at ha
      exact n.new a (by omega) tag
  | get a tag =>
    obtain ⟨o, ho⟩ := flags_obj rfl hu.1
    have hn := n.ptr i ho tag
    obtain ⟨h', v', o', e, -, -, hp, -, -, -, -⟩ := i.ptr ho tag
    simp only [ExtWorld.call, ho, e, Except.ok.injEq, Prod.mk.injEq] at h hn
    obtain ⟨h1, rfl⟩ := h
    refine ⟨hn, ?_⟩
    intro b t e'
    cases e'
    rw [← h1, hp, ← n.val a o ho tag]
    rfl
  | put a tag x =>
    obtain ⟨o, ho⟩ := flags_obj rfl hu.1
    have hn := n.ptr i ho tag
    obtain ⟨h', v', o', e, iv, -, hp, hv, hm, -, -⟩ := i.ptr ho tag
    simp only [ExtWorld.call, ho, e, Except.ok.injEq, Prod.mk.injEq] at h hn
    obtain ⟨-, rfl⟩ := h
    have hget : ∀ m, (v'.places.modify h' fun p => (p.1, if (K tag).many then p.2 ++ [x] else [x]))[m]? = if m = h' then some (tag, if (K tag).many then extOf K w o tag ++ [x] else [x]) else v'.places[m]? := by
      intro m
      rw [List.getElem?_modify]
      by_cases hm' : m = h'
      · subst hm'; simp [hp]
      · have hn' : ¬ h' = m := fun e => hm' e.symm
        simp only [if_neg hn', if_neg hm']
        cases v'.places[m]? <;> rfl
    refine ⟨⟨hn.apart, ?_, ?_⟩, fun b t e' => by cases e'⟩
    · intro b q hb t
      have hb' : v'.obj b = some q := hb
      rw [show attached K b t (A b t) [.put a tag x] = if a = b ∧ tag = t then (if (K t).many then A b t ++ [x] else [x]) else A b t from rfl]
      have hval := hn.val b q hb' t
      unfold extOf at hval ⊢
      cases hf : q.ext.find? (·.1 == t) with
      | none =>
        rw [hf] at hval
        simp only at hval ⊢
        rw [if_neg, hval]
        rintro ⟨rfl, rfl⟩
        rw [hv] at hb'
        cases hb'
        have := List.find?_eq_none.1 hf _ hm
        simp at this
      | some e' =>
        rw [hf] at hval
        simp only at hval ⊢
        obtain ⟨f1, f2⟩ := find_tag hf
        rw [hget]
        by_cases he : e'.2 = h'
        · rw [if_pos he]
          have hab : a = b := by
            by_cases hab : a = b
            · exact hab
            · exact absurd (List.mem_map.2 ⟨e', f1, he⟩) (hn.apart a b o' q hv hb' hab h' (List.mem_map.2 ⟨_, hm, rfl⟩))
          obtain ⟨l, hl⟩ := iv.place b q hb' e' f1
          rw [he, hp, f2] at hl
          have ht : tag = t := by cases hl; rfl
          rw [if_pos (show a = b ∧ tag = t from ⟨hab, ht⟩), ← hab, ← ht, ← n.val a o ho tag]
          rfl
        · rw [if_neg he, if_neg, hval]
          rintro ⟨rfl, rfl⟩
          rw [hv] at hb'
          cases hb'
          have := find_of_mem (iv.distinct a _ hv).1 hm
          simp only at this
          rw [hf] at this
          cases this
          exact he rfl
    · intro b hb t
      rw [show attached K b t (A b t) [.put a tag x] = if a = b ∧ tag = t then (if (K t).many then A b t ++ [x] else [x]) else A b t from rfl]
      have := obj_lt hv
      rw [if_neg (by rintro ⟨rfl, -⟩; simp only at hb; omega)]
      exact hn.new b hb t
  | copy a => exact absurd rfl (hc.1 a)
  | assign a b => exact absurd rfl (hc.2 a b)
  | delete a =>
    obtain ⟨o, ho⟩ := flags_obj rfl hu.1
    obtain ⟨v', e, -, v1, v2, -⟩ := i.drop ho none (by intro q hq; cases hq)
    simp only [ExtWorld.call, ho, e, Except.map, Except.ok.injEq, Prod.mk.injEq] at h
    obtain ⟨-, rfl⟩ := h
    have hobj : ∀ b q, v'.obj b = some q → w.obj b = some q := by
      intro b q hb
      have : v'.obj b = (⟨w.objs.set a none, w.places, w.dead⟩ : ExtWorld).obj b := by
        unfold ExtWorld.obj; rw [v1]
      rw [this, obj_set (obj_lt ho)] at hb
      by_cases hba : b = a
      · rw [if_pos hba] at hb; cases hb
      · rw [if_neg hba] at hb; exact hb
    refine ⟨⟨?_, ?_, ?_⟩, fun b t e' => by cases e'⟩
    · intro b c q q' hb hc'
      exact n.apart b c q q' (hobj b q hb) (hobj c q' hc')
    · intro b q hb tag
      rw [show extOf K v' q tag = extOf K w q tag by unfold extOf; rw [v2]]
      exact n.val b q (hobj b q hb) tag
    · intro b hb
      rw [v1, List.length_set] at hb
      exact n.new b hb

/-- Calls without copies. -/
theorem OwnInv.run (cs : List ExtCall) : ∀ {w : ExtWorld} {G : List Nat} {A : Nat → Nat → List Nat}, OwnInv K w A → ExtInv K w G → wellUsed (w.objs.map Option.isSome) cs → (G ++ givenAway K cs).Nodup → noCopies cs →
    ∀ {r v}, w.run K cs = .ok (r, v) → OwnInv K v (fun a tag => attached K a tag (A a tag) cs) := by
  induction cs with
  | nil => intro w G A n _ _ _ _ r v h; cases h; exact n
  | cons c cs ih =>
    intro w G A n i hu hG hc r v h
    rw [given_cons, ← List.append_assoc] at hG
    obtain ⟨u1, u2⟩ := wellUsed_cons hu
    obtain ⟨r1, v1, h1, h2, h3⟩ := i.call c u1 (List.nodup_append.1 hG).1
    rw [← h3] at u2
    have hn := (n.call i c u1 (List.nodup_append.1 hG).1 (hc c (by simp)) h1).1
    simp only [ExtWorld.run, h1] at h
    cases hr : v1.run K cs with
    | error e => rw [hr] at h; cases h
    | ok y =>
      obtain ⟨rs, v'⟩ := y
      rw [hr] at h
      cases h
      have := ih hn h2 u2 hG (fun c' hc' => hc c' (by simp [hc'])) hr
      simp only [attached_cons (K := K) _ _ _ c cs]
      exact this

theorem own_start : OwnInv K {} (fun _ tag => (K tag).init) := by
  refine ⟨?_, ?_, ?_⟩ <;> simp [ExtWorld.obj]

theorem wellUsed_append (cs ds : List ExtCall) : ∀ l, wellUsed l (cs ++ ds) ↔ wellUsed l cs ∧ wellUsed (cs.foldl flagsAfter l) ds := by
  induction cs with
  | nil => intro l; simp [wellUsed]
  | cons c cs ih =>
    intro l
    have := ih (flagsAfter l c)
    rw [List.foldl_cons]
    cases c <;> simp only [List.cons_append, wellUsed, flagsAfter] at this ⊢ <;> simp only [this, and_assoc]

theorem modify_last {α : Type} (f : α → α) (x : α) : ∀ l : List α, (l ++ [x]).modify l.length f = l ++ [f x] := by
  intro l
  induction l with
  | nil => rfl
  | cons y l ih => simp [ih]

/-! ## Nothing is lost -/

/-- What was given away is in a place, and was deleted if no object has the place. -/
structure LostInv (K : Nat → ExtKind) (w : ExtWorld) (G : List Nat) : Prop where
  lost : ∀ (h : Nat) (p : Nat × List Nat), w.places[h]? = some p → (K p.1).owned = true → w.used h = false → ∀ x ∈ p.2, x ≠ 0 → x ∈ w.dead
  kept : ∀ x ∈ G, ∃ (h : Nat) (p : Nat × List Nat), w.places[h]? = some p ∧ (K p.1).owned = true ∧ x ∈ p.2

/-- More places are used, and places stay. -/
theorem LostInv.more (n : LostInv K w G) {v : ExtWorld} (hp : ∀ (h : Nat) (p : Nat × List Nat), w.places[h]? = some p → v.places[h]? = some p)
    (hn : ∀ (h : Nat) (p : Nat × List Nat), v.places[h]? = some p → v.used h = false → w.places[h]? = some p) (hu : ∀ h, w.used h = true → v.used h = true) (hd : v.dead = w.dead) : LostInv K v G := by
  refine ⟨?_, ?_⟩
  · intro h p h1 h2 h3 x hx h0
    rw [hd]
    refine n.lost h p (hn h p h1 h3) h2 ?_ x hx h0
    rw [Bool.eq_false_iff] at h3 ⊢
    exact fun hh => h3 (hu h hh)
  · intro x hx
    obtain ⟨h, p, h1, h2, h3⟩ := n.kept x hx
    exact ⟨h, p, hp h p h1, h2, h3⟩

theorem LostInv.ptr (n : LostInv K w G) (i : ExtInv K w G) {a : Nat} {o : ExtObj} (ha : w.obj a = some o) (tag : Nat) : LostInv K (w.ptr K a o tag).2 G := by
  obtain ⟨h, v, o', e, iv, hd, -, hv, hm, -, hor⟩ := i.ptr ha tag
  rw [e]
  rcases hor with ⟨rfl, -⟩ | ⟨rfl, -, rfl, hv'⟩
  · exact n
  · have hpl : v.places = w.places ++ [(tag, (K tag).init)] := by rw [hv']
    refine n.more ?_ ?_ ?_ hd
    · intro h p hp
      show v.places[h]? = some p
      rw [hpl, List.getElem?_append_left (List.getElem?_eq_some_iff.1 hp).1]
      exact hp
    · intro h p hp hx
      have hp' : v.places[h]? = some p := hp
      rw [hpl] at hp'
      by_cases hl : h < w.places.length
      · rw [List.getElem?_append_left hl] at hp'; exact hp'
      · have h1 := (List.getElem?_eq_some_iff.1 hp').1
        rw [List.length_append, List.length_singleton] at h1
        have : h = w.places.length := by omega
        subst this
        rw [show v.used w.places.length = true from used_iff.2 ⟨a, _, hv, List.mem_map.2 ⟨_, hm, rfl⟩⟩] at hx
        cases hx
    · intro h hh
      obtain ⟨b, q, hb, hm'⟩ := used_iff.1 hh
      by_cases hba : b = a
      · subst hba
        rw [ha] at hb
        cases hb
        refine used_iff.2 ⟨b, _, hv, ?_⟩
        simp only [List.map_append]
        exact List.mem_append_left _ hm'
      · refine used_iff.2 ⟨b, q, ?_, hm'⟩
        show v.obj b = some q
        rw [hv', obj_set (obj_lt ha), if_neg hba]
        exact hb

/-- An object is changed or deleted, and gives up its places. -/
theorem LostInv.drop (n : LostInv K w G) {a : Nat} {o : ExtObj} (ha : w.obj a = some o) {x : Option ExtObj} {v : ExtWorld} (h1 : v.objs = w.objs.set a x) (h2 : v.places = w.places)
    (h3 : v.dead = w.dead ++ ((o.ext.map (·.2)).flatMap (({ w with objs := w.objs.set a x } : ExtWorld).owns K)).filter (· ≠ 0)) : LostInv K v G := by
  refine ⟨?_, by rw [h2]; exact n.kept⟩
  intro h p hp hk hu y hy h0
  rw [h2] at hp
  rw [h3, List.mem_append]
  by_cases hw : w.used h = true
  · right
    have hu' : ({ w with objs := w.objs.set a x } : ExtWorld).used h = false := by
      rw [← hu]; unfold ExtWorld.used; rw [h1]
    refine List.mem_filter.2 ⟨List.mem_flatMap.2 ⟨h, ?_, ?_⟩, by simpa using h0⟩
    · obtain ⟨b, q, hb, hm⟩ := used_iff.1 hw
      by_cases hba : b = a
      · subst hba
        rw [ha] at hb
        cases hb
        exact hm
      · exfalso
        rw [Bool.eq_false_iff] at hu'
        apply hu'
        refine used_iff.2 ⟨b, q, ?_, hm⟩
        rw [obj_set (obj_lt ha), if_neg hba]
        exact hb
    · unfold ExtWorld.owns
      rw [hu']
      simp [hp, hk, hy]
  · left
    exact n.lost h p hp hk (by simpa using hw) y hy h0

theorem LostInv.add (n : LostInv K w G) (o : ExtObj) : LostInv K { w with objs := w.objs ++ [some o] } G := by
  refine n.more (fun _ _ h => h) (fun _ _ h _ => h) ?_ rfl
  intro h hh
  obtain ⟨b, q, hb, hm⟩ := used_iff.1 hh
  refine used_iff.2 ⟨b, q, ?_, hm⟩
  rw [obj_add, if_neg (by have := obj_lt hb; omega)]
  exact hb

/-- One call that does not replace anything that is owned. -/
theorem LostInv.call (n : LostInv K w G) (i : ExtInv K w G) (c : ExtCall) (hu : wellUsed (w.objs.map Option.isSome) [c]) (hm : ∀ a tag x, c = .put a tag x → (K tag).owned = true → (K tag).many = true)
    {r : List Nat} {v : ExtWorld} (h : w.call K c = .ok (r, v)) : LostInv K v (G ++ givenAway K [c]) := by
  cases c with
  | make track => cases h; simpa [givenAway] using n.add _
  | get a tag =>
    obtain ⟨o, ho⟩ := flags_obj rfl hu.1
    simp only [ExtWorld.call, ho, Except.ok.injEq, Prod.mk.injEq] at h
    rw [← h.2]
    simpa [givenAway] using n.ptr i ho tag
  | put a tag x =>
    obtain ⟨o, ho⟩ := flags_obj rfl hu.1
    have hn := n.ptr i ho tag
    obtain ⟨h', v', o', e, iv, -, hp, hv, hmem, -, -⟩ := i.ptr ho tag
    simp only [ExtWorld.call, ho, e, Except.ok.injEq, Prod.mk.injEq] at h hn
    obtain ⟨-, rfl⟩ := h
    have hget : ∀ m, (v'.places.modify h' fun p => (p.1, if (K tag).many then p.2 ++ [x] else [x]))[m]? = if m = h' then some (tag, if (K tag).many then extOf K w o tag ++ [x] else [x]) else v'.places[m]? := by
      intro m
      rw [List.getElem?_modify]
      by_cases hm' : m = h'
      · subst hm'; simp [hp]
      · have hn' : ¬ h' = m := fun e => hm' e.symm
        simp only [if_neg hn', if_neg hm']
        cases v'.places[m]? <;> rfl
    have hused : v'.used h' = true := used_iff.2 ⟨a, o', hv, List.mem_map.2 ⟨_, hmem, rfl⟩⟩
    refine ⟨?_, ?_⟩
    · intro m p hp' hk hx y hy h0
      have hx' : v'.used m = false := hx
      simp only [hget] at hp'
      by_cases hm' : m = h'
      · subst hm'; rw [hused] at hx'; cases hx'
      · rw [if_neg hm'] at hp'
        exact hn.lost m p hp' hk hx' y hy h0
    · intro y hy
      simp only [hget]
      rcases List.mem_append.1 hy with hy | hy
      · obtain ⟨m, p, q1, q2, q3⟩ := hn.kept y hy
        by_cases hm' : m = h'
        · subst hm'
          rw [hp] at q1
          cases q1
          refine ⟨m, _, if_pos rfl, q2, ?_⟩
          rw [if_pos (hm a tag x rfl q2)]
          exact List.mem_append_left _ q3
        · exact ⟨m, p, by rw [if_neg hm']; exact q1, q2, q3⟩
      · simp only [givenAway] at hy
        split at hy
        · rename_i hk
          rw [List.mem_singleton] at hy
          subst hy
          refine ⟨h', _, if_pos rfl, hk.1, ?_⟩
          split <;> simp
        · cases hy
  | copy a =>
    obtain ⟨o, ho⟩ := flags_obj rfl hu.1
    simp only [ExtWorld.call, ho, Except.ok.injEq, Prod.mk.injEq] at h
    rw [← h.2]
    simpa [givenAway] using n.add _
  | assign a b =>
    obtain ⟨o, ho⟩ := flags_obj rfl hu.1
    obtain ⟨o', ho'⟩ := flags_obj rfl hu.2.1
    simp only [ExtWorld.call, ho, ho'] at h
    by_cases ht : o.track = true
    · rw [if_pos ht] at h
      cases h
      simpa [givenAway] using n
    · rw [if_neg ht] at h
      obtain ⟨v', e, -, v1, v2, v3⟩ := i.drop ho (some { o with ext := o'.ext }) (by
        intro q hq; cases hq; exact ⟨b, o', ho', rfl⟩)
      rw [e] at h
      cases h
      simpa [givenAway] using n.drop ho v1 v2 v3
  | delete a =>
    obtain ⟨o, ho⟩ := flags_obj rfl hu.1
    simp only [ExtWorld.call, ho] at h
    obtain ⟨v', e, -, v1, v2, v3⟩ := i.drop ho none (by intro q hq; cases hq)
    rw [e] at h
    cases h
    simpa [givenAway] using n.drop ho v1 v2 v3

theorem LostInv.run (cs : List ExtCall) (hm : ∀ a tag x, .put a tag x ∈ cs → (K tag).owned = true → (K tag).many = true) : ∀ {w : ExtWorld} {G : List Nat}, LostInv K w G → ExtInv K w G →
    wellUsed (w.objs.map Option.isSome) cs → (G ++ givenAway K cs).Nodup → ∀ {r v}, w.run K cs = .ok (r, v) → LostInv K v (G ++ givenAway K cs) := by
  induction cs with
  | nil => intro w G n _ _ _ r v h; cases h; simpa [givenAway] using n
  | cons c cs ih =>
    intro w G n i hu hG r v h
    rw [given_cons, ← List.append_assoc] at hG ⊢
    obtain ⟨u1, u2⟩ := wellUsed_cons hu
    obtain ⟨r1, v1, h1, h2, h3⟩ := i.call c u1 (List.nodup_append.1 hG).1
    rw [← h3] at u2
    have hn := n.call i c u1 (fun a tag x e => hm a tag x (by simp [e])) h1
    simp only [ExtWorld.run, h1] at h
    cases hr : v1.run K cs with
    | error e => rw [hr] at h; cases h
    | ok y =>
      obtain ⟨rs, v'⟩ := y
      rw [hr] at h
      cases h
      exact ih (fun a tag x e => hm a tag x (by simp [e])) hn h2 u2 hG hr

theorem lost_start : LostInv K {} [] := by
  refine ⟨?_, ?_⟩ <;> simp

end Props
