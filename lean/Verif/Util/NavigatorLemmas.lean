import Verif.Spec.Navigator
import Verif.Lcio.CollectionLemmas
/-
Lemmas about the relation navigator.
-/
namespace Util
open Sio Lcio Spec

theorem addrWeak : StrictWeak addrLt := by
  refine ⟨fun a => by simp [addrLt], fun a b c h1 h2 => ?_, fun a b c h1 h2 => ?_⟩
  · simp only [addrLt, decide_eq_true_eq] at *; omega
  · simp only [eqv, addrLt, Bool.and_eq_true, Bool.not_eq_true', decide_eq_false_iff_not] at *; omega

theorem eqv_addr (a b : Nat) : eqv addrLt a b = true ↔ a = b := by
  simp only [eqv, addrLt, Bool.and_eq_true, Bool.not_eq_true', decide_eq_false_iff_not]; omega

theorem find_assign {V : Type} (k k' : Nat) (v : V) (m : List (Nat × V)) :
    omFind addrLt k' (omAssign addrLt k v m).1 = if k' = k then some v else omFind addrLt k' m := by
  rw [omFind_assign addrWeak]
  by_cases h : k' = k
  · rw [if_pos h, if_pos ((eqv_addr _ _).2 h.symm)]
  · rw [if_neg h, if_neg (fun h' => h ((eqv_addr _ _).1 h').symm)]

theorem find_erase {V : Type} (k k' : Nat) (m : List (Nat × V)) :
    omFind addrLt k' (omErase addrLt k m) = if k' = k then none else omFind addrLt k' m := by
  unfold omFind omErase
  rw [List.find?_filter]
  by_cases h : k' = k
  · rw [if_pos h, List.find?_eq_none.2]
    · rfl
    · intro x _
      rw [h]
      cases eqv addrLt x.1 k <;> simp
  · rw [if_neg h]
    congr 2
    funext x
    cases hx : eqv addrLt x.1 k' with
    | false => simp
    | true =>
      have : x.1 = k' := (eqv_addr _ _).1 hx
      have : eqv addrLt x.1 k = false := by
        rw [Bool.eq_false_iff]; intro e; exact h (this ▸ (eqv_addr _ _).1 e)
      simp [this]

theorem find_insert {V : Type} (k k' : Nat) (v : V) (m : List (Nat × V)) (ho : Ordered addrLt m) :
    omFind addrLt k' (omInsert addrLt k v m) = if k' = k then some ((omFind addrLt k m).getD v) else omFind addrLt k' m := by
  induction m with
  | nil =>
    simp only [omInsert, omFind, List.find?_cons, List.find?_nil]
    by_cases h : k' = k
    · rw [if_pos h, (eqv_addr k k').2 h.symm]; rfl
    · rw [if_neg h, Bool.eq_false_iff.2 (fun e => h ((eqv_addr k k').1 e).symm)]
  | cons e m ih =>
    obtain ⟨a, b⟩ := e
    obtain ⟨o1, o2⟩ := List.pairwise_cons.1 ho
    unfold omInsert
    split
    · rename_i h1
      have hnone : omFind addrLt k ((a, b) :: m) = none := by
        unfold omFind
        rw [List.find?_eq_none.2]
        · rfl
        · intro x hx e
          have := (eqv_addr _ _).1 e
          simp only [addrLt, decide_eq_true_eq] at h1 o1
          rcases List.mem_cons.1 hx with rfl | hx
          · simp only at this; omega
          · have := o1 x hx; omega
      rw [hnone]
      by_cases h : k' = k
      · rw [if_pos h]; unfold omFind; rw [List.find?_cons, (eqv_addr k k').2 h.symm]; rfl
      · rw [if_neg h]
        conv => lhs; unfold omFind
        rw [List.find?_cons, Bool.eq_false_iff.2 (fun e => h ((eqv_addr k k').1 e).symm)]; rfl
    · rename_i h1
      split
      · rename_i h2
        have hka : k ≠ a := by
          simp only [addrLt, decide_eq_true_eq] at h2; omega
        have e1 : eqv addrLt a k = false := Bool.eq_false_iff.2 fun e => hka ((eqv_addr _ _).1 e).symm
        have hk : omFind addrLt k ((a, b) :: m) = omFind addrLt k m := by
          unfold omFind; rw [List.find?_cons, e1]
        rw [hk]
        cases e2 : eqv addrLt a k' with
        | true =>
          have : k' ≠ k := by
            have := (eqv_addr _ _).1 e2; omega
          rw [if_neg this]
          unfold omFind; rw [List.find?_cons, List.find?_cons, e2]
        | false =>
          have := ih o2
          unfold omFind at this ⊢
          rw [List.find?_cons, List.find?_cons, e2]; exact this
      · rename_i h2
        have hka : a = k := by
          simp only [addrLt, decide_eq_true_eq] at h1 h2; omega
        by_cases h : k' = k
        · rw [if_pos h, h]
          unfold omFind; rw [List.find?_cons, (eqv_addr a k).2 hka]; rfl
        · rw [if_neg h]

theorem ordered_insert {V : Type} (k : Nat) (v : V) (m : List (Nat × V)) (ho : Ordered addrLt m) :
    Ordered addrLt (omInsert addrLt k v m) ∧ ∀ x ∈ omInsert addrLt k v m, x.1 = k ∨ x ∈ m := by
  induction m with
  | nil => simp [omInsert, Ordered]
  | cons e m ih =>
    obtain ⟨a, b⟩ := e
    obtain ⟨o1, o2⟩ := List.pairwise_cons.1 ho
    unfold omInsert
    split
    · rename_i h1
      refine ⟨List.pairwise_cons.2 ⟨?_, ho⟩, ?_⟩
      · intro x hx
        rcases List.mem_cons.1 hx with rfl | hx
        · exact h1
        · exact addrWeak.trans _ _ _ h1 (o1 x hx)
      · intro x hx
        rcases List.mem_cons.1 hx with rfl | hx
        · exact .inl rfl
        · exact .inr hx
    · split
      · rename_i h2
        obtain ⟨i1, i2⟩ := ih o2
        refine ⟨List.pairwise_cons.2 ⟨?_, i1⟩, ?_⟩
        · intro x hx
          rcases i2 x hx with e | hx
          · rw [e]; exact h2
          · exact o1 x hx
        · intro x hx
          rcases List.mem_cons.1 hx with rfl | hx
          · exact .inr List.mem_cons_self
          · rcases i2 x hx with e | hx
            · exact .inl e
            · exact .inr (List.mem_cons_of_mem _ hx)
      · exact ⟨ho, fun x hx => .inr hx⟩

/-- The map holds these relations. -/
structure Holds (m : RelMap) (R : List Relation) : Prop where
  ordered : Ordered addrLt m
  entry : ∀ k, m.at k = ((R.filter (·.from_ = k)).map (·.to), (R.filter (·.from_ = k)).map (·.weight))

theorem vec_add (add : W32 → W32 → W32) (a b : Nat) (w : W32) (E : List Relation) (hE : ∀ r ∈ E, r.from_ = a) (hn : (E.map ends).Nodup) :
    vecAdd add (E.map (·.to)) (E.map (·.weight)) b w = ((relAdd add E a b w).map (·.to), (relAdd add E a b w).map (·.weight)) := by
  have hsome : ∀ E : List Relation, (∀ r ∈ E, r.from_ = a) → (E.map ends).Nodup → (a, b) ∈ E.map ends →
      ∃ i, (E.map (·.to)).findIdx? (· == b) = some i ∧
        (E.map (·.weight)).modify i (add · w) = (E.map fun r => if ends r = (a, b) then { r with weight := add r.weight w } else r).map (·.weight) := by
    intro E
    induction E with
    | nil => intro _ _ h; cases h
    | cons r E ih =>
      intro hE hn hm
      rw [List.map_cons, List.nodup_cons] at hn
      have hr := hE r List.mem_cons_self
      by_cases hb : r.to = b
      · refine ⟨0, ?_, ?_⟩
        · rw [List.map_cons, List.findIdx?_cons, hb, beq_self_eq_true]; rfl
        · have he : ends r = (a, b) := by unfold ends; rw [hr, hb]
          simp only [List.map_cons, List.modify_zero_cons, if_pos he, List.map_map]
          congr 1
          apply List.map_congr_left
          intro s hs
          have : ends s ≠ (a, b) := by
            intro e
            exact hn.1 (by rw [he, ← e]; exact List.mem_map_of_mem hs)
          simp only [Function.comp, if_neg this]
      · have he : ends r ≠ (a, b) := by
          unfold ends; intro e; exact hb (Prod.mk.inj e).2
        obtain ⟨i, i1, i2⟩ := ih (fun s hs => hE s (List.mem_cons_of_mem _ hs)) hn.2 (by
          rw [List.map_cons, List.mem_cons] at hm
          rcases hm with hm | hm
          · exact absurd hm.symm he
          · exact hm)
        refine ⟨i + 1, ?_, ?_⟩
        · rw [List.map_cons, List.findIdx?_cons, beq_eq_false_iff_ne.2 hb, i1]; rfl
        · simp only [List.map_cons, List.modify_succ_cons, if_neg he, i2]
  unfold vecAdd
  by_cases hm : (a, b) ∈ E.map ends
  · obtain ⟨i, i1, i2⟩ := hsome E hE hn hm
    rw [i1]
    simp only [relAdd, if_pos hm, i2, Prod.mk.injEq, and_true, List.map_map]
    apply List.map_congr_left
    intro r _
    simp only [Function.comp]; split <;> rfl
  · have hnone : (E.map (·.to)).findIdx? (· == b) = none := by
      rw [List.findIdx?_eq_none_iff]
      intro x hx
      obtain ⟨r, hr, rfl⟩ := List.mem_map.1 hx
      rw [beq_eq_false_iff_ne]
      intro e
      exact hm (List.mem_map.2 ⟨r, hr, by unfold ends; rw [hE r hr, e]⟩)
    rw [hnone]
    simp only [relAdd, if_neg hm, List.map_append, List.map_cons, List.map_nil]

theorem vec_remove (a b : Nat) (E : List Relation) (hE : ∀ r ∈ E, r.from_ = a) (hn : (E.map ends).Nodup) :
    match (E.map (·.to)).findIdx? (· == b) with
    | some i => (E.map (·.to)).eraseIdx i = (relRemove E a b).map (·.to) ∧ (E.map (·.weight)).eraseIdx i = (relRemove E a b).map (·.weight)
    | none => relRemove E a b = E := by
  induction E with
  | nil => rfl
  | cons r E ih =>
    rw [List.map_cons, List.nodup_cons] at hn
    have hr := hE r List.mem_cons_self
    have ih := ih (fun s hs => hE s (List.mem_cons_of_mem _ hs)) hn.2
    rw [List.map_cons, List.findIdx?_cons]
    by_cases hb : r.to = b
    · have he : ends r = (a, b) := by unfold ends; rw [hr, hb]
      have hrest : relRemove E a b = E := by
        unfold relRemove
        rw [List.filter_eq_self]
        intro s hs
        simp only [decide_eq_true_eq]
        intro e
        exact hn.1 (by rw [he, ← e]; exact List.mem_map_of_mem hs)
      have h2 : relRemove (r :: E) a b = E := by
        unfold relRemove at hrest ⊢
        rw [List.filter_cons, if_neg (by simp [he]), hrest]
      rw [hb, beq_self_eq_true, h2]
      exact ⟨rfl, rfl⟩
    · have he : ends r ≠ (a, b) := by
        unfold ends; intro e; exact hb (Prod.mk.inj e).2
      have h2 : relRemove (r :: E) a b = r :: relRemove E a b := by
        unfold relRemove
        rw [List.filter_cons, if_pos (by simp [he])]
      rw [beq_eq_false_iff_ne.2 hb, h2, if_neg (by decide)]
      cases hf : (E.map (·.to)).findIdx? (· == b) with
      | none =>
        rw [hf] at ih
        simp only at ih
        simp only [Option.map_none, ih]
      | some i =>
        rw [hf] at ih
        simp only [Option.map_some, List.map_cons]
        exact ⟨congrArg (r.to :: ·) ih.1, congrArg (r.weight :: ·) ih.2⟩

theorem filter_add (add : W32 → W32 → W32) (R : List Relation) (a b k : Nat) (w : W32) :
    (relAdd add R a b w).filter (·.from_ = k) = if k = a then relAdd add (R.filter (·.from_ = a)) a b w else R.filter (·.from_ = k) := by
  have hmem : (a, b) ∈ (R.filter (·.from_ = a)).map ends ↔ (a, b) ∈ R.map ends := by
    simp only [List.mem_map, List.mem_filter, decide_eq_true_eq]
    constructor
    · rintro ⟨r, ⟨h1, h2⟩, h3⟩; exact ⟨r, h1, h3⟩
    · rintro ⟨r, h1, h3⟩; exact ⟨r, ⟨h1, (Prod.mk.inj h3).1⟩, h3⟩
  have hfrom : ∀ r : Relation, (if ends r = (a, b) then { r with weight := add r.weight w } else r).from_ = r.from_ := by
    intro r; split <;> rfl
  unfold relAdd
  by_cases h : (a, b) ∈ R.map ends
  · rw [if_pos h, List.filter_map]
    have : ((fun r : Relation => decide (r.from_ = k)) ∘ fun r => if ends r = (a, b) then { r with weight := add r.weight w } else r) =
        fun r => decide (r.from_ = k) := by
      funext r; simp only [Function.comp, hfrom]
    rw [this]
    by_cases hk : k = a
    · rw [if_pos hk, if_pos (hmem.2 h), hk]
    · rw [if_neg hk]
      rw [List.map_congr_left (g := id), List.map_id]
      intro r hr
      simp only [List.mem_filter, decide_eq_true_eq] at hr
      rw [if_neg]
      · rfl
      · intro e; exact hk (hr.2.symm.trans (Prod.mk.inj e).1)
  · rw [if_neg h, List.filter_append]
    by_cases hk : k = a
    · rw [if_pos hk, if_neg (fun e => h (hmem.1 e)), hk]; simp
    · rw [if_neg hk]
      simp [Ne.symm hk]

theorem filter_remove (R : List Relation) (a b k : Nat) :
    (relRemove R a b).filter (·.from_ = k) = if k = a then relRemove (R.filter (·.from_ = a)) a b else R.filter (·.from_ = k) := by
  unfold relRemove
  by_cases hk : k = a
  · rw [if_pos hk, hk, List.filter_filter, List.filter_filter]
    congr 1; funext r; rw [Bool.and_comm]
  · rw [if_neg hk, List.filter_filter]
    apply List.filter_congr
    intro r _
    by_cases h : r.from_ = k
    · have : ends r ≠ (a, b) := by intro e; exact hk (h.symm.trans (Prod.mk.inj e).1)
      simp [h, this]
    · simp [h]

theorem nodup_add (add : W32 → W32 → W32) (R : List Relation) (a b : Nat) (w : W32) (hn : (R.map ends).Nodup) : ((relAdd add R a b w).map ends).Nodup := by
  unfold relAdd
  split
  · rw [List.map_map, List.map_congr_left (g := ends)]
    · exact hn
    · intro r _; simp only [Function.comp]; split <;> rfl
  · rename_i h
    rw [List.map_append, List.nodup_append]
    refine ⟨hn, List.nodup_cons.2 ⟨List.not_mem_nil, List.nodup_nil⟩, ?_⟩
    intro x hx y hy e
    simp only [List.map_cons, List.map_nil, List.mem_cons, List.not_mem_nil, or_false] at hy
    exact h (by rw [e, hy] at hx; exact hx)

theorem nodup_remove (R : List Relation) (a b : Nat) (hn : (R.map ends).Nodup) : ((relRemove R a b).map ends).Nodup :=
  hn.sublist (List.Sublist.map ends List.filter_sublist)

theorem nodup_filter (R : List Relation) (p : Relation → Bool) (hn : (R.map ends).Nodup) : ((R.filter p).map ends).Nodup :=
  hn.sublist (List.Sublist.map ends List.filter_sublist)

theorem from_of_filter (R : List Relation) (a : Nat) : ∀ r ∈ R.filter (·.from_ = a), r.from_ = a := by
  intro r hr; simpa using (List.mem_filter.1 hr).2

theorem Holds.add {m : RelMap} {R : List Relation} (h : Holds m R) (hn : (R.map ends).Nodup) (add : W32 → W32 → W32) (a b : Nat) (w : W32) :
    Holds (m.add add a b w) (relAdd add R a b w) := by
  unfold RelMap.add
  rw [h.entry a]
  simp only
  rw [vec_add add a b w _ (from_of_filter R a) (nodup_filter R _ hn)]
  refine ⟨(omAssign_keys addrWeak _ _ _ h.ordered).1, ?_⟩
  intro k
  unfold RelMap.at
  rw [find_assign, filter_add]
  by_cases hk : k = a
  · rw [if_pos hk, if_pos hk]; rfl
  · rw [if_neg hk, if_neg hk]; exact h.entry k

theorem Holds.remove {m : RelMap} {R : List Relation} (h : Holds m R) (hn : (R.map ends).Nodup) (a b : Nat) : Holds (m.remove a b) (relRemove R a b) := by
  have he := h.entry a
  have hv := vec_remove a b _ (from_of_filter R a) (nodup_filter R _ hn)
  have same : ∀ (m' : RelMap), Ordered addrLt m' → m'.at a = ((relRemove (R.filter (·.from_ = a)) a b).map (·.to), (relRemove (R.filter (·.from_ = a)) a b).map (·.weight)) →
      (∀ k, k ≠ a → m'.at k = m.at k) → Holds m' (relRemove R a b) := by
    intro m' ho h1 h2
    refine ⟨ho, fun k => ?_⟩
    rw [filter_remove]
    by_cases hk : k = a
    · rw [if_pos hk, hk]; exact h1
    · rw [if_neg hk, h2 k hk]; exact h.entry k
  unfold RelMap.remove
  cases hf : omFind addrLt a m with
  | none =>
    simp only
    have : m.at a = ([], []) := by unfold RelMap.at; rw [hf]; rfl
    rw [this] at he
    have hnil : R.filter (·.from_ = a) = [] := List.map_eq_nil_iff.1 (Prod.mk.inj he).1.symm
    refine same m h.ordered ?_ (fun _ _ => rfl)
    rw [this, hnil]; rfl
  | some v =>
    obtain ⟨vTo, vWgt⟩ := v
    have : m.at a = (vTo, vWgt) := by unfold RelMap.at; rw [hf]; rfl
    rw [this] at he
    obtain ⟨e1, e2⟩ := Prod.mk.inj he
    simp only [e1, e2]
    cases hi : ((R.filter (·.from_ = a)).map (·.to)).findIdx? (· == b) with
    | none =>
      rw [hi] at hv
      simp only at hv
      refine same m h.ordered ?_ (fun _ _ => rfl)
      rw [hv]; exact h.entry a
    | some i =>
      rw [hi] at hv
      simp only [hv.1, hv.2]
      split
      · rename_i hnil
        refine same _ (List.Pairwise.filter _ h.ordered) ?_ ?_
        · unfold RelMap.at
          rw [find_erase, if_pos rfl, List.map_eq_nil_iff.1 hnil]; rfl
        · intro k hk
          unfold RelMap.at
          rw [find_erase, if_neg hk]
      · refine same _ (omAssign_keys addrWeak _ _ _ h.ordered).1 ?_ ?_
        · unfold RelMap.at
          rw [find_assign, if_pos rfl]; rfl
        · intro k hk
          unfold RelMap.at
          rw [find_assign, if_neg hk]

theorem Holds.touch {m : RelMap} {R : List Relation} (h : Holds m R) (k : Nat) : Holds (omInsert addrLt k ([], []) m) R := by
  refine ⟨(ordered_insert _ _ _ h.ordered).1, ?_⟩
  intro k'
  rw [← h.entry k']
  unfold RelMap.at
  rw [find_insert _ _ _ _ h.ordered]
  by_cases hk : k' = k
  · rw [if_pos hk, hk]; rfl
  · rw [if_neg hk]

/-- The relation seen from the other side. -/
def flip (r : Relation) : Relation := { from_ := r.to, to := r.from_, weight := r.weight }

theorem ends_flip (r : Relation) (a b : Nat) : ends (flip r) = (b, a) ↔ ends r = (a, b) := by
  unfold ends flip; simp only [Prod.mk.injEq]; exact And.comm

theorem mem_flip (R : List Relation) (a b : Nat) : (b, a) ∈ (R.map flip).map ends ↔ (a, b) ∈ R.map ends := by
  simp only [List.map_map, List.mem_map, Function.comp, ends_flip]

theorem flip_add (add : W32 → W32 → W32) (R : List Relation) (a b : Nat) (w : W32) : relAdd add (R.map flip) b a w = (relAdd add R a b w).map flip := by
  unfold relAdd
  by_cases h : (a, b) ∈ R.map ends
  · rw [if_pos h, if_pos ((mem_flip R a b).2 h), List.map_map, List.map_map]
    apply List.map_congr_left
    intro r _
    simp only [Function.comp]
    by_cases hr : ends r = (a, b)
    · rw [if_pos hr, if_pos ((ends_flip r a b).2 hr)]; rfl
    · rw [if_neg hr, if_neg (fun e => hr ((ends_flip r a b).1 e))]
  · rw [if_neg h, if_neg (fun e => h ((mem_flip R a b).1 e)), List.map_append]; rfl

theorem flip_remove (R : List Relation) (a b : Nat) : relRemove (R.map flip) b a = (relRemove R a b).map flip := by
  unfold relRemove
  rw [List.filter_map]
  congr 1
  apply List.filter_congr
  intro r _
  simp only [Function.comp, ne_eq, ends_flip]

theorem nodup_flip (R : List Relation) (hn : (R.map ends).Nodup) : ((R.map flip).map ends).Nodup := by
  rw [List.map_map]
  have : (R.map ends).map Prod.swap = R.map (ends ∘ flip) := by rw [List.map_map]; rfl
  rw [← this]
  exact List.Pairwise.map _ (fun x y h e => h (by
    obtain ⟨a, b⟩ := x; obtain ⟨c, d⟩ := y
    simp only [Prod.swap_prod_mk, Prod.mk.injEq] at e ⊢; exact ⟨e.2, e.1⟩)) hn

/-- The navigator holds these relations. -/
structure NavHolds (n : Navigator) (R : List Relation) : Prop where
  nodup : (R.map ends).Nodup
  fwd : Holds n.map R
  bwd : Holds n.rMap (R.map flip)

theorem NavHolds.add {n : Navigator} {R : List Relation} (h : NavHolds n R) (add : W32 → W32 → W32) (a b : Nat) (w : W32) :
    NavHolds (n.addRelation add a b w) (relAdd add R a b w) :=
  ⟨nodup_add add R a b w h.nodup, h.fwd.add h.nodup add a b w, by rw [← flip_add]; exact h.bwd.add (nodup_flip R h.nodup) add b a w⟩

theorem NavHolds.remove {n : Navigator} {R : List Relation} (h : NavHolds n R) (a b : Nat) : NavHolds (n.removeRelation a b) (relRemove R a b) :=
  ⟨nodup_remove R a b h.nodup, h.fwd.remove h.nodup a b, by rw [← flip_remove]; exact h.bwd.remove (nodup_flip R h.nodup) b a⟩

theorem flip_filter (R : List Relation) (b : Nat) : ((R.map flip).filter (·.from_ = b)) = (R.filter (·.to = b)).map flip := by
  rw [List.filter_map]; rfl

/-- The elements of the collection. -/
def navElements (m : RelMap) : List Relation :=
  m.flatMap fun e => (e.2.1.zip e.2.2).map fun x => ({ from_ := e.1, to := x.1, weight := x.2 } : Relation)

theorem navElements_from (m : RelMap) : ∀ r ∈ navElements m, ∃ e ∈ m, r.from_ = e.1 := by
  intro r hr
  obtain ⟨e, he, hr⟩ := List.mem_flatMap.1 hr
  obtain ⟨x, _, rfl⟩ := List.mem_map.1 hr
  exact ⟨e, he, rfl⟩

theorem navElements_filter (m : RelMap) (ho : Ordered addrLt m) (k : Nat) :
    (navElements m).filter (·.from_ = k) = ((m.at k).1.zip (m.at k).2).map fun x => ({ from_ := k, to := x.1, weight := x.2 } : Relation) := by
  induction m with
  | nil => rfl
  | cons e m ih =>
    obtain ⟨o1, o2⟩ := List.pairwise_cons.1 ho
    have hsplit : navElements (e :: m) = ((e.2.1.zip e.2.2).map fun x => ({ from_ := e.1, to := x.1, weight := x.2 } : Relation)) ++ navElements m := by
      unfold navElements; rw [List.flatMap_cons]
    rw [hsplit, List.filter_append]
    by_cases h : e.1 = k
    · have h1 : (navElements m).filter (·.from_ = k) = [] := by
        rw [List.filter_eq_nil_iff]
        intro r hr
        obtain ⟨e', he', hr'⟩ := navElements_from m r hr
        have := o1 e' he'
        simp only [addrLt, decide_eq_true_eq] at this ⊢
        omega
      have h2 : RelMap.at (e :: m) k = e.2 := by
        unfold RelMap.at omFind; rw [List.find?_cons, (eqv_addr _ _).2 h]; rfl
      rw [h1, List.append_nil, h2, List.filter_eq_self.2, h]
      intro r hr
      obtain ⟨x, _, rfl⟩ := List.mem_map.1 hr
      simp [h]
    · have h1 : ((e.2.1.zip e.2.2).map fun x => ({ from_ := e.1, to := x.1, weight := x.2 } : Relation)).filter (·.from_ = k) = [] := by
        rw [List.filter_eq_nil_iff]
        intro r hr
        obtain ⟨x, _, rfl⟩ := List.mem_map.1 hr
        simp [h]
      have h2 : RelMap.at (e :: m) k = RelMap.at m k := by
        unfold RelMap.at omFind
        rw [List.find?_cons, Bool.eq_false_iff.2 (fun e' => h ((eqv_addr _ _).1 e'))]
      rw [h1, List.nil_append, h2]
      exact ih o2

theorem navElements_sorted (m : RelMap) (ho : Ordered addrLt m) : (navElements m).Pairwise fun r s => r.from_ ≤ s.from_ := by
  induction m with
  | nil => exact List.Pairwise.nil
  | cons e m ih =>
    obtain ⟨o1, o2⟩ := List.pairwise_cons.1 ho
    have hsplit : navElements (e :: m) = ((e.2.1.zip e.2.2).map fun x => ({ from_ := e.1, to := x.1, weight := x.2 } : Relation)) ++ navElements m := by
      unfold navElements; rw [List.flatMap_cons]
    rw [hsplit, List.pairwise_append]
    refine ⟨?_, ih o2, ?_⟩
    · rw [List.pairwise_map]; exact List.pairwise_of_forall fun _ _ => Nat.le_refl _
    · intro r hr s hs
      obtain ⟨x, _, rfl⟩ := List.mem_map.1 hr
      obtain ⟨e', he', hs'⟩ := navElements_from m s hs
      have := o1 e' he'
      simp only [addrLt, decide_eq_true_eq] at this ⊢
      omega

theorem zip_maps (E : List Relation) (k : Nat) (h : ∀ r ∈ E, r.from_ = k) :
    ((E.map (·.to)).zip (E.map (·.weight))).map (fun x => ({ from_ := k, to := x.1, weight := x.2 } : Relation)) = E := by
  induction E with
  | nil => rfl
  | cons r E ih =>
    rw [List.map_cons, List.map_cons, List.zip_cons_cons, List.map_cons, ih fun s hs => h s (List.mem_cons_of_mem _ hs)]
    congr 1
    have := h r List.mem_cons_self
    cases r; simp only at this ⊢; rw [this]

theorem Holds.elements {m : RelMap} {R : List Relation} (h : Holds m R) (k : Nat) : (navElements m).filter (·.from_ = k) = R.filter (·.from_ = k) := by
  rw [navElements_filter m h.ordered, h.entry k]
  exact zip_maps _ k (from_of_filter R k)

theorem perm_of_filters (A B : List Relation) (h : ∀ k, A.filter (·.from_ = k) = B.filter (·.from_ = k)) : A.Perm B := by
  rw [List.perm_iff_count]
  intro r
  have hc : ∀ L : List Relation, (L.filter (·.from_ = r.from_)).count r = L.count r := by
    intro L; exact List.count_filter (by simp)
  rw [← hc A, ← hc B, h]

end Util
