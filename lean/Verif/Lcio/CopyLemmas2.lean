import Verif.Lcio.CopyLemmas
/-
Storing the collections that were loaded.
-/
namespace Lcio
open Sio Spec

/-! ### Parameters -/

theorem omAssign_over {K V : Type} {lt : K → K → Bool} (h : StrictWeak lt) (k : K) (v v' : V) (m : List (K × V)) :
    (omAssign lt k v' (omAssign lt k v m).1).1 = (omAssign lt k v' m).1 := by
  induction m with
  | nil => simp [omAssign, h.irrefl]
  | cons x m ih =>
    obtain ⟨k', w⟩ := x
    by_cases h1 : lt k k' = true
    · simp [omAssign, h1, h.irrefl]
    · by_cases h2 : lt k' k = true
      · simp [omAssign, h1, h2, ih]
      · simp [omAssign, h1, h2]

theorem assignVal_single {α : Type} (m : VecMap α) (key : Str) (v : α) : assignVal m key v = assignVals m key [v] := by
  unfold assignVal assignVals
  simp only [omFind_assign strWeak, show eqv strLt key key = true from (eqv_str key key).2 rfl, if_true, Option.getD_some, List.nil_append]
  exact omAssign_over strWeak _ _ _ _

theorem assignVals_twice {α : Type} (m : VecMap α) (key : Str) (vs : List α) : assignVals (assignVals m key vs) key vs = assignVals m key vs :=
  omAssign_over strWeak _ _ _ _

/-- What `defaultParam` leaves. -/
theorem defaultParam_cases (p p' : Params) (key : Str) (g : Option Generic) (val : Generic → Str) (h : defaultParam p key g val = .ok p') :
    omFind strLt key p.strs ≠ some [] ∧ (p' = p ∨ ∃ o, g = some o ∧ p' = { p with strs := assignVals p.strs key [val o] }) ∧
    (∀ o, g = some o → (∃ v vs, omFind strLt key p'.strs = some (v :: vs) ∧ v ≠ []) ∨ (val o = [] ∧ p' = { p with strs := assignVals p.strs key [[]] })) := by
  unfold defaultParam at h
  have hk : omFind strLt key p.strs ≠ some [] := by
    intro e
    unfold getVal at h
    rw [e] at h; cases h
  refine ⟨hk, ?_⟩
  cases hv : getVal [] p.strs key with
  | error e => rw [hv] at h; cases h
  | ok old =>
    rw [hv] at h
    cases g with
    | none => cases h; exact ⟨Or.inl rfl, fun o e => by cases e⟩
    | some o =>
      simp only [bind, Except.bind] at h
      split at h
      · rename_i hold
        unfold Params.setStr Params.checked at h
        split at h
        · cases h
        · simp only [Except.ok.injEq] at h
          rw [assignVal_single] at h
          refine ⟨Or.inr ⟨o, rfl, h.symm⟩, ?_⟩
          intro o' e
          cases e
          by_cases hz : val o = []
          · exact Or.inr ⟨hz, by rw [← h, hz]⟩
          · refine Or.inl ⟨val o, [], ?_, hz⟩
            rw [← h]
            simp only [assignVals]
            rw [omFind_assign strWeak, if_pos ((eqv_str _ _).2 rfl)]
      · rename_i hold
        cases h
        refine ⟨Or.inl rfl, fun o' _ => ?_⟩
        unfold getVal at hv
        cases hf : omFind strLt key p.strs with
        | none => rw [hf] at hv; cases hv; simp at hold
        | some l =>
          cases l with
          | nil => exact absurd hf hk
          | cons v vs =>
            rw [hf] at hv; cases hv
            exact Or.inl ⟨_, _, rfl, fun e => hold (by rw [e]; rfl)⟩

theorem defaultParam_noop (q : Params) (key : Str) (g : Option Generic) (val : Generic → Str) (hr : q.readOnly = false)
    (h0 : omFind strLt key q.strs ≠ some [])
    (h : ∀ o, g = some o → (∃ v vs, omFind strLt key q.strs = some (v :: vs) ∧ v ≠ []) ∨ (val o = [] ∧ assignVals q.strs key [[]] = q.strs)) :
    defaultParam q key g val = .ok q := by
  unfold defaultParam
  cases g with
  | none =>
    unfold getVal
    match hh : omFind strLt key q.strs with
    | none => rfl
    | some [] => exact absurd hh h0
    | some (v :: _) => rfl
  | some o =>
    rcases h o rfl with ⟨v, vs, hf, hne⟩ | ⟨hz, ha⟩
    · unfold getVal
      rw [hf]
      simp only [bind, Except.bind]
      rw [if_neg]
      intro e
      exact hne (List.isEmpty_iff.1 e)
    · have hv : getVal [] q.strs key = .ok [] := by
        unfold getVal
        rw [← ha]
        simp only [assignVals]
        rw [omFind_assign strWeak, if_pos ((eqv_str _ _).2 rfl)]
      rw [hv]
      simp only [bind, Except.bind, List.isEmpty_nil, if_true]
      unfold Params.setStr Params.checked
      rw [hr, hz, assignVal_single, ha]
      obtain ⟨i, f, s, r⟩ := q
      simp only at hr
      subst hr
      rfl

theorem assignVals_ne (m : VecMap Str) (key key' : Str) (v : Str) (h : omFind strLt key' m ≠ some []) : omFind strLt key' (assignVals m key [v]) ≠ some [] := by
  unfold assignVals
  rw [omFind_assign strWeak]
  split
  · intro e; cases e
  · exact h

theorem assignVals_other (m : VecMap Str) (key key' : Str) (vs : List Str) (h : key' ≠ key) : omFind strLt key' (assignVals m key vs) = omFind strLt key' m := by
  unfold assignVals
  rw [omFind_assign strWeak, if_neg]
  intro e
  exact h ((eqv_str _ _).1 e).symm

/-! ### Collections -/

/-- What was loaded for an element, as it is stored again. -/
def AgainElem (std : Std Pid) (c c1 : Collection) (T : Nat → Nat) (e e1 : Elem) : Prop :=
  if c.flag.getLsbD 18 then e1.addr = T e.addr ∧ (kindD c = .vertex → ∀ v, e.obj = some (.vertex v) → ∃ f, e1.obj = some (.vertex (keptVertex f v)))
  else (∃ o ds, e.obj = some o ∧ e1.obj = some ((keptObj std c1.flag T ((pidsOf o).map fun p => T p.addr) o).setD ds)) ∧
    (canPointAt c.flag (kindD c) = true → e1.addr = T e.addr)

/-- What was loaded for a collection, as it is stored again. -/
structure Again (std : Std Pid) (T : Nat → Nat) (c c1 : Collection) : Prop where
  type : c1.type = c.type
  flag : c1.flag = (c.written std).flag
  params : c1.params = (c.written std).params
  elems : All2 (AgainElem std c c1 T) c.elems c1.elems

/-- What is needed of the collection that was stored first. -/
structure First (std : Std Pid) (c : Collection) : Prop where
  ok : CollectionOk std (kindD c) c
  noSubset : c.flag.getLsbD 18 = true → kindD c ≠ .generic
  numbers : ∀ e ∈ c.elems, ∀ o, e.obj = some o → ∀ p ∈ idsOf o, fNaN p.likelihood = false
  typeNames : ∀ e ∈ c.elems, ∀ o, e.obj = some (.generic o) → o.typeName ≠ []

section
variable {std : Std Pid} {T : Nat → Nat} {c c1 : Collection}

theorem _root_.Spec.All2.mem_left {α β : Type} {R : α → β → Prop} {l : List α} {l' : List β} (h : All2 R l l') {a : α} (ha : a ∈ l) : ∃ b ∈ l', R a b := by
  obtain ⟨i, hi⟩ := List.getElem?_of_mem ha
  have hlt : i < l'.length := by rw [← h.1]; exact (List.getElem?_eq_some_iff.1 hi).1
  exact ⟨l'[i], List.getElem_mem _, h.2 i a _ hi (List.getElem?_eq_getElem hlt)⟩

theorem _root_.Spec.All2.flatMap_perm {α β γ : Type} {R : α → β → Prop} {l : List α} {l' : List β} (h : All2 R l l') (f : α → List γ) (g : β → List γ)
    (hR : ∀ a ∈ l, ∀ b ∈ l', R a b → (g b).Perm (f a)) : (l'.flatMap g).Perm (l.flatMap f) := by
  induction l generalizing l' with
  | nil => rw [h.nil_inv]; exact List.Perm.refl _
  | cons a l ih =>
    obtain ⟨b, t, rfl, h2, h3⟩ := h.cons_inv
    rw [List.flatMap_cons, List.flatMap_cons]
    exact (hR a (by simp) b (by simp) h2).append (ih h3 fun x hx y hy => hR x (by simp [hx]) y (by simp [hy]))

theorem Again.vertices (h : Again std T c c1) (hc : First std c) (hk : kindD c = .vertex) :
    All2 (fun e e1 => ∃ v f, e.obj = some (.vertex v) ∧ e1.obj = some (.vertex (keptVertex f v))) c.elems c1.elems := by
  refine h.elems.mono fun e he e1 _ hee => ?_
  obtain ⟨v, hv⟩ := hc.ok.vertices hk e he
  unfold AgainElem at hee
  split at hee
  · obtain ⟨f, hf⟩ := hee.2 hk v hv
    exact ⟨v, f, hv, hf⟩
  · obtain ⟨⟨o, ds, ho, ho1⟩, _⟩ := hee
    rw [hv, Option.some.injEq] at ho
    subst ho
    exact ⟨v, T, hv, ho1⟩

theorem algTypes_again {es es1 : List Elem} (h : All2 (fun e e1 => ∃ v f, e.obj = some (.vertex v) ∧ e1.obj = some (.vertex (keptVertex f v))) es es1) (set : List Str) :
    algTypes es1 set = algTypes es set := by
  induction es generalizing es1 set with
  | nil => rw [h.nil_inv]
  | cons e es ih =>
    obtain ⟨e1, t, rfl, ⟨v, f, h1, h2⟩, h3⟩ := h.cons_inv
    simp only [algTypes, h1, h2]
    exact ih h3 _

theorem Again.generics (h : Again std T c c1) (hc : First std c) (hk : kindD c = .generic) :
    All2 (fun e e1 => ∃ o, e.obj = some (.generic o) ∧ e1.obj = some (.generic (keptGeneric (c1.flag.getLsbD 31) o))) c.elems c1.elems := by
  refine h.elems.mono fun e he e1 _ hee => ?_
  obtain ⟨g, hg⟩ := (hc.ok.generic hk).objects e he
  unfold AgainElem at hee
  rw [if_neg (fun h18 => hc.noSubset h18 hk)] at hee
  obtain ⟨⟨o, ds, ho, ho1⟩, _⟩ := hee
  rw [hg, Option.some.injEq] at ho
  subst ho
  exact ⟨g, hg, ho1⟩

theorem firstGeneric_again {b : Bool} {es es1 : List Elem} (h : All2 (fun e e1 => ∃ o, e.obj = some (.generic o) ∧ e1.obj = some (.generic (keptGeneric b o))) es es1) :
    firstGeneric es1 = (firstGeneric es).map (keptGeneric b) := by
  cases es with
  | nil => rw [h.nil_inv]; rfl
  | cons e es =>
    obtain ⟨e1, t, rfl, ⟨o, h1, h2⟩, h3⟩ := h.cons_inv
    obtain ⟨a, x⟩ := e
    obtain ⟨a1, x1⟩ := e1
    simp only at h1 h2
    subst h1 h2
    rfl

theorem allFixed_again {b : Bool} {es es1 : List Elem} (h : All2 (fun e e1 => ∃ o, e.obj = some (.generic o) ∧ e1.obj = some (.generic (keptGeneric b o))) es es1)
    (hb : b = false → es ≠ []) : allFixed es1 = .ok b := by
  induction es generalizing es1 with
  | nil =>
    rw [h.nil_inv]
    cases b
    · exact absurd rfl (hb rfl)
    · rfl
  | cons e es ih =>
    obtain ⟨e1, t, rfl, ⟨o, h1, h2⟩, h3⟩ := h.cons_inv
    simp only [allFixed, h2, keptGeneric]
    cases b
    · rfl
    · exact ih h3 (fun h => by cases h)

/-- What preparing a collection of generic objects does. -/
theorem prepare_generic (c : Collection) (ctx : Ctx) (c' : Collection) (h : c.prepare std .generic = .ok (ctx, c')) :
    ∃ b p1, allFixed c.elems = .ok b ∧ defaultParam c.params (str "TypeName") (firstGeneric c.elems) (·.typeName) = .ok p1 ∧
      c'.flag = (if b then c.flag ||| 1#32 <<< 31 else c.flag) ∧ c'.type = c.type ∧ c'.elems = c.elems ∧
      (b = true → defaultParam p1 (str "DataDescription") (firstGeneric c.elems) (·.descr) = .ok c'.params) ∧ (b = false → c'.params = p1) := by
  simp only [Collection.prepare, bind, Except.bind, pure, Except.pure] at h
  cases hfa : allFixed c.elems with
  | error e => rw [hfa] at h; cases h
  | ok fixed =>
    rw [hfa] at h
    simp only at h
    cases hp1 : defaultParam c.params (str "TypeName") (firstGeneric c.elems) (·.typeName) with
    | error e => rw [hp1] at h; cases h
    | ok p1 =>
      rw [hp1] at h
      simp only at h
      refine ⟨fixed, p1, rfl, rfl, ?_⟩
      cases fixed
      · simp only [Bool.false_eq_true, if_false, Except.ok.injEq, Prod.mk.injEq] at h
        obtain ⟨_, rfl⟩ := h
        exact ⟨rfl, rfl, rfl, (fun e => by cases e), fun _ => rfl⟩
      · simp only [if_true] at h
        split at h
        · cases h
        · rename_i p2 hp2
          cases h
          exact ⟨rfl, rfl, rfl, (fun _ => hp2), fun e => by cases e⟩

theorem flag31_same (f : W32) (h : f.getLsbD 31 = true) : f ||| 1#32 <<< 31 = f := by
  apply BitVec.eq_of_getLsbD_eq
  intro i hi
  by_cases e : i = 31
  · subst e; rw [setBit31', h]
  · exact setBit31 _ _ e

/-- Writing a collection that was loaded does not change it. -/
theorem again_prepare (h : Again std T c c1) (hc : First std c) :
    ∃ ctx ctx1, Prepared std (kindD c) c ctx (c.written std) ∧ Prepared std (kindD c) c1 ctx1 c1 ∧ GenericColOk c1 ∨ kindD c ≠ .generic ∧
      Prepared std (kindD c) c ctx (c.written std) ∧ Prepared std (kindD c) c1 ctx1 c1 := by
  obtain ⟨ctx, c', hp⟩ := prepare_ok std _ c hc.ok.access hc.ok.vertices hc.ok.generic
  have hw := written_eq std _ c ctx c' hc.ok.kind hp
  have hfl := h.flag
  have hpa := h.params
  rw [hw] at hfl hpa
  have hro : c1.params.readOnly = false := by rw [hpa]; exact hp.access
  by_cases hv : kindD c = .vertex
  · have hvs := h.vertices hc hv
    obtain ⟨ctx1, c1', hp1⟩ := prepare_ok std (kindD c) c1 hro
      (fun _ e1 he1 => by
        obtain ⟨e, _, v, f, _, hh⟩ := hvs.mem_right he1
        exact ⟨_, hh⟩)
      (fun hg => by rw [hv] at hg; cases hg)
    refine ⟨ctx, ctx1, Or.inr ⟨by rw [hv]; decide, hw ▸ hp, ?_⟩⟩
    suffices hcc : c1' = c1 by rw [hcc] at hp1; exact hp1
    have e1 := hp1.eq
    have e0 := hp.eq
    rw [hv] at e1 e0
    simp only [Collection.prepare, bind, Except.bind, pure, Except.pure, algTypes_again hvs] at e1 e0
    split at e0
    · cases e0
    · rename_i algs halg
      rw [halg] at e1
      unfold Params.setStrs Params.checked at e0 e1
      rw [hc.ok.access] at e0
      rw [hro] at e1
      simp only [Bool.false_eq_true, if_false, Except.ok.injEq, Prod.mk.injEq] at e0 e1
      rw [← e1.2]
      obtain ⟨ty, fl, pa, el⟩ := c1
      simp only at hpa ⊢
      congr 1
      rw [hpa, ← e0.2]
      simp only [assignVals_twice]
  · by_cases hg : kindD c = .generic
    · have hgs := h.generics hc hg
      have hgc := hc.ok.generic hg
      have e0 := hp.eq
      rw [hg] at e0
      obtain ⟨b, p1, b1, b2, b3, -, -, b4, b5⟩ := prepare_generic c ctx c' e0
      obtain ⟨b', b1', b6⟩ := allFixed_ok c.elems hgc.objects
      rw [b1, Except.ok.injEq] at b1'
      subst b1'
      have h31 : c1.flag.getLsbD 31 = b := by
        rw [hfl, b3]
        cases b
        · rcases hgc.fixed with hh | hh
          · exact absurd (b6.2 hh) (by decide)
          · simpa using hh
        · simp only [if_true]; exact setBit31' _
      rw [h31] at hgs
      have hne : b = false → c.elems ≠ [] := by
        rintro rfl hn
        rw [hn] at b6
        exact absurd (b6.2 (fun e he => by cases he)) (by decide)
      have a1 := allFixed_again hgs hne
      have g1 := firstGeneric_again hgs
      -- the parameters
      obtain ⟨d1, d2, d3⟩ := defaultParam_cases _ _ _ _ _ b2
      have t1 : omFind strLt (str "TypeName") p1.strs ≠ some [] := by
        rcases d2 with rfl | ⟨o, _, rfl⟩
        · exact d1
        · exact assignVals_ne _ _ _ _ d1
      have x1 : omFind strLt (str "DataDescription") p1.strs ≠ some [] := by
        rcases d2 with rfl | ⟨o, _, rfl⟩
        · exact hgc.descr
        · exact assignVals_ne _ _ _ _ hgc.descr
      have t2 : omFind strLt (str "TypeName") c'.params.strs = omFind strLt (str "TypeName") p1.strs := by
        cases b
        · rw [b5 rfl]
        · obtain ⟨_, f2, _⟩ := defaultParam_cases _ _ _ _ _ (b4 rfl)
          rcases f2 with e | ⟨o, _, e⟩
          · rw [e]
          · rw [e]; exact assignVals_other _ _ _ _ (by decide)
      have x2 : omFind strLt (str "DataDescription") c'.params.strs ≠ some [] := by
        cases b
        · rw [b5 rfl]; exact x1
        · obtain ⟨f1, f2, _⟩ := defaultParam_cases _ _ _ _ _ (b4 rfl)
          rcases f2 with e | ⟨o, _, e⟩
          · rw [e]; exact x1
          · rw [e]; exact assignVals_ne _ _ _ _ x1
      have hG : GenericColOk c1 := by
        refine ⟨?_, ?_, ?_, by rw [hpa, t2]; exact t1, by rw [hpa]; exact x2⟩
        · intro e1 he1
          obtain ⟨e, _, o, _, hh⟩ := hgs.mem_right he1
          exact ⟨_, hh⟩
        · cases b
          · exact Or.inr h31
          · refine Or.inl fun e1 he1 o ho => ?_
            obtain ⟨e, _, o', _, hh⟩ := hgs.mem_right he1
            rw [hh] at ho; cases ho; rfl
        · intro hall e1 he1 e2 he2 o1 o2 ho1 ho2
          obtain ⟨e, he, o, ho, hh⟩ := hgs.mem_right he1
          obtain ⟨e', he', o', ho', hh'⟩ := hgs.mem_right he2
          have hb : b = true := by have := hall e1 he1 _ hh; exact this
          rw [hh] at ho1
          rw [hh'] at ho2
          cases ho1
          cases ho2
          exact hgc.sizes (b6.1 hb) e he e' he' o o' ho ho'
      obtain ⟨ctx1, c1', hp1⟩ := prepare_ok std (kindD c) c1 hro (fun hh => absurd hh hv) (fun _ => hG)
      refine ⟨ctx, ctx1, Or.inl ⟨hw ▸ hp, ?_, hG⟩⟩
      suffices hcc : c1' = c1 by rw [hcc] at hp1; exact hp1
      have e1 := hp1.eq
      rw [hg] at e1
      obtain ⟨bb, q1, k1, k2, k3, k4, k5, k6, k7⟩ := prepare_generic c1 ctx1 c1' e1
      rw [a1, Except.ok.injEq] at k1
      subst k1
      have n1 : defaultParam c1.params (str "TypeName") (firstGeneric c1.elems) (·.typeName) = .ok c1.params := by
        refine defaultParam_noop _ _ _ _ hro (by rw [hpa, t2]; exact t1) ?_
        intro o1 ho1
        rw [g1] at ho1
        obtain ⟨o, ho, rfl⟩ := Option.map_eq_some_iff.1 ho1
        left
        rw [hpa, t2]
        rcases d3 o ho with hh | ⟨hh, _⟩
        · exact hh
        · obtain ⟨e, he, heo⟩ := firstGeneric_some _ _ ho
          exact absurd hh (hc.typeNames e he o heo)
      rw [n1, Except.ok.injEq] at k2
      subst k2
      have hpar : c1'.params = c1.params := by
        cases b
        · exact k7 rfl
        · have n2 : defaultParam c1.params (str "DataDescription") (firstGeneric c1.elems) (·.descr) = .ok c1.params := by
            refine defaultParam_noop _ _ _ _ hro (by rw [hpa]; exact x2) ?_
            intro o1 ho1
            rw [g1] at ho1
            obtain ⟨o, ho, rfl⟩ := Option.map_eq_some_iff.1 ho1
            rw [hpa]
            obtain ⟨_, _, f3⟩ := defaultParam_cases _ _ _ _ _ (b4 rfl)
            rcases f3 o ho with hh | ⟨_, hh⟩
            · exact Or.inl hh
            · exact Or.inr ⟨rfl, by rw [hh]; exact assignVals_twice _ _ _⟩
          have := k6 rfl
          rw [n2, Except.ok.injEq] at this
          exact this.symm
      have hflag : c1'.flag = c1.flag := by
        rw [k3]
        cases b
        · rfl
        · exact flag31_same _ h31
      obtain ⟨ty, fl, pa, el⟩ := c1
      obtain ⟨ty', fl', pa', el'⟩ := c1'
      simp only at hpar hflag k4 k5
      rw [hpar, hflag, k4, k5]
    · obtain ⟨ctx1, c1', hp1⟩ := prepare_ok std (kindD c) c1 hro (fun hh => absurd hh hv) (fun hh => absurd hh hg)
      refine ⟨ctx, ctx1, Or.inr ⟨hg, hw ▸ hp, ?_⟩⟩
      suffices hcc : c1' = c1 by rw [hcc] at hp1; exact hp1
      have e1 := hp1.eq
      generalize kindD c = k at *
      cases k <;> first | exact absurd rfl hv | exact absurd rfl hg | (simp only [Collection.prepare] at e1; cases e1; rfl)

theorem Again.prepared (h : Again std T c c1) (hc : First std c) :
    ∃ ctx ctx1, Prepared std (kindD c) c ctx (c.written std) ∧ Prepared std (kindD c) c1 ctx1 c1 ∧ (kindD c = .generic → GenericColOk c1) := by
  obtain ⟨ctx, ctx1, ⟨a, b, d⟩ | ⟨a, b, d⟩⟩ := again_prepare h hc
  · exact ⟨ctx, ctx1, a, b, fun _ => d⟩
  · exact ⟨ctx, ctx1, b, d, fun e => absurd e a⟩

theorem Again.kind (h : Again std T c c1) : kindD c1 = kindD c := by unfold kindD; rw [h.type]

theorem Again.written (h : Again std T c c1) (hc : First std c) : c1.written std = c1 := by
  obtain ⟨_, ctx1, _, hp1, _⟩ := h.prepared hc
  exact written_eq std _ c1 ctx1 c1 (h.type ▸ hc.ok.kind) hp1

theorem Again.bits (h : Again std T c c1) (hc : First std c) (i : Nat) (hi : i ≠ 31) : c1.flag.getLsbD i = c.flag.getLsbD i := by
  rw [h.flag]; exact written_bits std _ c hc.ok i hi

theorem Again.ok (hl : Laws std) (h : Again std T c c1) (hc : First std c) : CollectionOk std (kindD c1) c1 := by
  obtain ⟨ctx, ctx1, hp, hp1, hg⟩ := h.prepared hc
  rw [h.kind]
  refine ⟨h.type ▸ hc.ok.kind, ?_, hp1.access, ?_, ?_, ?_, hg⟩
  · rw [← h.elems.1]; exact hc.ok.count
  · rw [h.written hc, h.params]; exact hc.ok.params
  · intro h18 e1 he1
    rw [h.bits hc 18 (by decide)] at h18
    obtain ⟨e, he, hee⟩ := h.elems.mem_right he1
    unfold AgainElem at hee
    rw [if_neg (by rw [h18]; exact Bool.false_ne_true)] at hee
    obtain ⟨⟨o, ds, ho, ho1⟩, _⟩ := hee
    obtain ⟨o', ho', hok⟩ := hc.ok.objects h18 e he
    rw [ho, Option.some.injEq] at ho'
    subst ho'
    exact ⟨_, ho1, objOk_kept std _ T _ _ o hok (List.length_map ..) (hl.adds o (hc.numbers e he o ho)) ds⟩
  · intro hk e1 he1
    obtain ⟨e, _, v, f, _, hh⟩ := (h.vertices hc hk).mem_right he1
    exact ⟨_, hh⟩

theorem write_prepared (k : Kind) (ctx : Ctx) (c' : Collection) (hk : kindOf c.type = some k) (hp : Prepared std k c ctx c') :
    c.write std = writeHead k ctx c' ++ wFor (if ctx.bit 18 then fun e => wPtr e.addr else Elem.write k ctx) c'.elems := by
  unfold Collection.write
  rw [hk]
  simp only [hp.eq]

theorem Again.shapes (hl : Laws std) (h : Again std T c c1) (hc : First std c) : (shapes (c1.write std)).Perm (shapes (c.write std)) := by
  obtain ⟨ctx, ctx1, hp, hp1, hg⟩ := h.prepared hc
  rw [write_prepared _ _ _ hc.ok.kind hp, write_prepared (c := c1) _ _ _ (h.type ▸ hc.ok.kind) hp1]
  have hfl : ctx1.flag = ctx.flag := by rw [hp1.flag, hp.flag, h.flag]
  have hfx : ctx1.fixed = ctx.fixed := by rw [hp1.fixed, hp.fixed, h.flag]
  have h18 : ctx1.bit 18 = ctx.bit 18 := by unfold Ctx.bit; rw [hfl]
  have h18' : ctx.bit 18 = c.flag.getLsbD 18 := by
    unfold Ctx.bit; rw [hp.flag]; exact written_bits std _ c hc.ok 18 (by decide)
  rw [shapes_append, shapes_append]
  refine List.Perm.append (List.Perm.of_eq ?_) ?_
  · unfold writeHead
    simp only [shapes_append, shapes_wIf, shapes_w32, hfx, h.params]
  · rw [hp.elems, wFor_eq _ _ hc.ok.count, wFor_eq _ _ (by rw [← h.elems.1]; exact hc.ok.count)]
    unfold wEach
    rw [shapes_append, shapes_append, shapes_w32, shapes_w32, shapes_flatMap, shapes_flatMap, h18]
    refine List.Perm.append (List.Perm.refl _) ?_
    apply h.elems.flatMap_perm
    intro e he e1 he1 hee
    unfold AgainElem at hee
    rw [h18']
    split at hee
    · rename_i hb
      rw [if_pos hb, if_pos hb, shapes_wPtr, shapes_wPtr]
    · rename_i hb
      rw [if_neg hb, if_neg hb]
      obtain ⟨⟨o, ds, ho, ho1⟩, _⟩ := hee
      obtain ⟨o', ho', hok⟩ := hc.ok.objects (by simpa using hb) e he
      rw [ho, Option.some.injEq] at ho'
      subst ho'
      unfold Elem.write
      rw [ho, ho1]
      refine shapes_kept std _ ctx ctx1 ?_ ?_ hfx ?_ T _ _ o hok (List.length_map ..) (hl.adds o (hc.numbers e he o ho)) ds _ _
      · rw [← hfl, hp1.flag]
      · rw [hp1.flag]
      · intro hf
        have hk : kindD c = .generic := by
          rw [hp.fixed, Bool.and_eq_true, beq_iff_eq] at hf
          exact hf.1
        obtain ⟨g, hgo⟩ := (hc.ok.generic hk).objects e he
        rw [ho, Option.some.injEq] at hgo
        subst hgo
        obtain ⟨a1, a2, a3⟩ := hp.sizes hk hf e he g ho
        obtain ⟨b1, b2, b3⟩ := hp1.sizes hk (by rw [hfx]; exact hf) e1 he1 _ ho1
        rw [a1, a2, a3, b1, b2, b3]
        exact ⟨rfl, rfl, rfl⟩

theorem Again.tagged (hl : Laws std) (h : Again std T c c1) (hc : First std c) :
    (tagged c1.flag (kindD c1) c1.elems).Perm ((tagged c.flag (kindD c) c.elems).map T) := by
  rw [h.kind]
  unfold Spec.tagged
  rw [h.bits hc 18 (by decide), canPointAt_congr c1.flag c.flag _ (fun i hi => h.bits hc i hi)]
  split
  · exact List.Perm.refl _
  · rename_i hb
    rw [List.map_flatMap]
    apply h.elems.flatMap_perm
    intro e he e1 he1 hee
    unfold AgainElem at hee
    rw [if_neg hb] at hee
    obtain ⟨⟨o, ds, ho, ho1⟩, haddr⟩ := hee
    rw [ho, ho1, List.map_append]
    refine List.Perm.append ?_ (List.Perm.of_eq ?_)
    · have := (pids_kept std c1.flag T ((pidsOf o).map fun p => T p.addr) o (List.length_map ..) (hl.adds o (hc.numbers e he o ho)) ds).2
      rw [List.map_map]
      exact this
    · split
      · rename_i hcp
        rw [haddr hcp]; rfl
      · rfl

end

end Lcio
