import Verif.Spec.Event
/-
Restoring the daughters from the parents.
-/
namespace Lcio
open Sio Spec

theorem withD_addr (D : Nat → List Nat) (e : Elem) : (Elem.withD D e).addr = e.addr := by
  unfold Elem.withD; split <;> rfl

theorem withD_particle (D : Nat → List Nat) (e : Elem) : (Elem.withD D e).particle = e.particle.map fun o => { o with daughters := D e.addr } := by
  obtain ⟨addr, obj⟩ := e
  unfold Elem.withD Elem.particle
  cases obj with
  | none => rfl
  | some o => cases o <;> rfl

theorem upd_withD (D : Nat → List Nat) (a c : Nat) (e : Elem) :
    (Elem.withD D e).upd a (fun o => { o with daughters := o.daughters ++ [c] }) = Elem.withD (fun x => if x = a then D x ++ [c] else D x) e := by
  obtain ⟨addr, obj⟩ := e
  unfold Elem.withD Elem.upd
  cases obj with
  | none => rfl
  | some o =>
    cases o <;> try rfl
    simp only
    split <;> rfl

theorem upd_withDaughters (D : Nat → List Nat) (a c : Nat) (cs : List (Str × Collection)) :
    updParticle a (fun o => { o with daughters := o.daughters ++ [c] }) (withDaughters D cs) =
      withDaughters (fun x => if x = a then D x ++ [c] else D x) cs := by
  unfold updParticle withDaughters
  rw [List.map_map]
  refine List.map_congr_left fun x _ => ?_
  simp only [Function.comp, List.map_map]
  congr 2
  exact List.map_congr_left fun e _ => upd_withD D a c e

theorem allElems_withD (D : Nat → List Nat) (cs : List (Str × Collection)) : allElems (withDaughters D cs) = (allElems cs).map (Elem.withD D) := by
  unfold allElems withDaughters
  rw [List.flatMap_map, List.map_flatMap]

theorem findParticle_withD (D : Nat → List Nat) (cs : List (Str × Collection)) (a : Nat) :
    findParticle (withDaughters D cs) a = (findParticle cs a).map fun o => { o with daughters := D a } := by
  unfold findParticle
  rw [allElems_withD]
  induction allElems cs with
  | nil => rfl
  | cons e es ih =>
    simp only [List.map_cons, List.findSome?_cons, withD_addr, withD_particle]
    by_cases he : e.addr = a
    · simp only [he, if_true]
      cases e.particle with
      | none => exact ih
      | some o => rfl
    · simp only [he, if_false]; exact ih

theorem parentsOf_eq (e : Elem) (o : MCParticle) (h : e.particle = some o) : parentsOf e = o.parents := by
  unfold Elem.particle at h
  unfold parentsOf
  cases ho : e.obj with
  | none => rw [ho] at h; cases h
  | some x =>
    rw [ho] at h
    cases x <;> simp only [Option.some.injEq, reduceCtorEq] at h
    rw [h]

theorem pushDaughters_ok (B : List (Str × Collection)) (c : Nat) (ps : List Nat) (D : Nat → List Nat) (h : ∀ p ∈ ps, findParticle B p ≠ none) :
    pushDaughters c ps (withDaughters D B) = .ok (withDaughters (fun x => D x ++ (ps.filter (· == x)).map fun _ => c) B) := by
  induction ps generalizing D with
  | nil => simp only [pushDaughters, List.filter_nil, List.map_nil, List.append_nil]
  | cons p ps ih =>
    obtain ⟨o, ho⟩ := Option.ne_none_iff_exists'.1 (h p (by simp))
    simp only [pushDaughters, findParticle_withD, ho, Option.map_some]
    rw [upd_withDaughters, ih _ fun q hq => h q (by simp [hq])]
    congr 2
    funext x
    by_cases hx : x = p
    · subst hx; simp
    · have : ¬ p = x := fun e => hx e.symm
      simp [hx, this]

theorem restoreLoop_ok (B : List (Str × Collection)) (nP : Nat) (hP : nP > 0) (es : List Elem) (D : Nat → List Nat)
    (h : ∀ e ∈ es, ∃ o, findParticle B e.addr = some o ∧ o.parents = parentsOf e ∧ ∀ p ∈ o.parents, findParticle B p ≠ none) :
    restoreLoop 0 nP (es.map (·.addr)) (withDaughters D B) = .ok (withDaughters (fun x => D x ++ childrenOf es x) B) := by
  induction es generalizing D with
  | nil => simp only [List.map_nil, restoreLoop, childrenOf, List.flatMap_nil, List.append_nil]
  | cons e es ih =>
    obtain ⟨o, h1, h2, h3⟩ := h e (by simp)
    simp only [List.map_cons, restoreLoop, findParticle_withD, h1, Option.map_some]
    rw [if_neg (by omega), if_pos ⟨hP, trivial⟩, pushDaughters_ok B _ _ _ h3]
    simp only
    rw [ih _ fun x hx => h x (by simp [hx])]
    simp only [childrenOf, List.flatMap_cons, List.append_assoc, h2]

theorem restoreLoop_none (B : List (Str × Collection)) (es : List Elem) (h : ∀ e ∈ es, findParticle B e.addr ≠ none) :
    restoreLoop 0 0 (es.map (·.addr)) B = .ok B := by
  induction es with
  | nil => rfl
  | cons e es ih =>
    obtain ⟨o, ho⟩ := Option.ne_none_iff_exists'.1 (h e (by simp))
    simp only [List.map_cons, restoreLoop, ho]
    rw [if_neg (by omega), if_neg (by omega)]
    exact ih fun x hx => h x (by simp [hx])

/-- What the lemmas need to know of collections that were just loaded. -/
structure Fit (B : List (Str × Collection)) : Prop where
  particles : ∀ c ∈ B, isMC c = true → ∀ e ∈ c.2.elems, ∃ o, e.particle = some o
  none : ∀ c ∈ B, isMC c = false → ∀ e ∈ c.2.elems, e.particle = none
  nodup : (mcAddrs B).Nodup
  parents : ParentsEarlier B

/-- The children over several collections. -/
def kids (B : List (Str × Collection)) (x : Nat) : List Nat := B.flatMap fun c => if isMC c then childrenOf c.2.elems x else []

theorem findSome_unique (es : List Elem) (e : Elem) (o : MCParticle) (he : e ∈ es) (ho : e.particle = some o)
    (hu : ∀ e' ∈ es, e'.particle ≠ none → e'.addr = e.addr → e' = e) :
    (es.findSome? fun e' => if e'.addr = e.addr then e'.particle else none) = some o := by
  induction es with
  | nil => cases he
  | cons x es ih =>
    rw [List.findSome?_cons]
    by_cases hx : x.addr = e.addr
    · rw [if_pos hx]
      cases hp : x.particle with
      | some o' =>
        have := hu x (by simp) (by rw [hp]; simp) hx
        subst this
        rw [ho] at hp
        cases hp; rfl
      | none =>
        rcases List.mem_cons.1 he with rfl | he
        · rw [ho] at hp; cases hp
        · exact ih he fun e' h' => hu e' (by simp [h'])
    · rw [if_neg hx]
      rcases List.mem_cons.1 he with rfl | he
      · exact absurd rfl hx
      · exact ih he fun e' h' => hu e' (by simp [h'])

theorem mcAddrs_eq (B : List (Str × Collection)) : mcAddrs B = (mcElems B).map (·.addr) := by
  unfold mcAddrs mcElems
  rw [List.map_flatMap]
  congr 1
  funext c
  split <;> rfl

theorem nodup_map_inj {α : Type} (f : α → Nat) (l : List α) (h : (l.map f).Nodup) (a b : α) (ha : a ∈ l) (hb : b ∈ l) (hab : f a = f b) : a = b := by
  induction l with
  | nil => cases ha
  | cons x l ih =>
    simp only [List.map_cons, List.nodup_cons] at h
    rcases List.mem_cons.1 ha with e1 | ha' <;> rcases List.mem_cons.1 hb with e2 | hb'
    · rw [e1, e2]
    · exact absurd (by rw [← e1, hab]; exact List.mem_map_of_mem hb') h.1
    · exact absurd (by rw [← e2, ← hab]; exact List.mem_map_of_mem ha') h.1
    · exact ih h.2 ha' hb'

theorem mem_mcElems {B : List (Str × Collection)} {e : Elem} : e ∈ mcElems B ↔ ∃ c ∈ B, isMC c = true ∧ e ∈ c.2.elems := by
  unfold mcElems
  rw [List.mem_flatMap]
  refine exists_congr fun c => and_congr_right fun _ => ?_
  cases isMC c <;> simp

theorem Fit.find {B : List (Str × Collection)} (h : Fit B) (e : Elem) (he : e ∈ mcElems B) : ∃ o, e.particle = some o ∧ findParticle B e.addr = some o := by
  obtain ⟨c, hc, hm, hec⟩ := mem_mcElems.1 he
  obtain ⟨o, ho⟩ := h.particles c hc hm e hec
  refine ⟨o, ho, ?_⟩
  unfold findParticle
  apply findSome_unique _ e o (List.mem_flatMap.2 ⟨c, hc, hec⟩) ho
  intro e' he' hp ha
  obtain ⟨c', hc', hec'⟩ := List.mem_flatMap.1 he'
  have hm' : isMC c' = true := by
    cases hm' : isMC c'
    · exact absurd (h.none c' hc' hm' e' hec') hp
    · rfl
  exact nodup_map_inj _ _ (mcAddrs_eq B ▸ h.nodup) _ _ (mem_mcElems.2 ⟨c', hc', hm', hec'⟩) he ha

theorem particles_withD (D : Nat → List Nat) (es : List Elem) (h : ∀ e ∈ es, ∃ o, e.particle = some o) (hD : ∀ e ∈ es, D e.addr = []) :
    ∃ ps, particles (es.map (Elem.withD D)) = some ps ∧ (ps.map (·.daughters.length)).sum = 0 ∧
      (ps.map (·.parents.length)).sum = (es.map fun e => (parentsOf e).length).sum := by
  induction es with
  | nil => exact ⟨[], rfl, rfl, rfl⟩
  | cons e es ih =>
    obtain ⟨o, ho⟩ := h e (by simp)
    obtain ⟨ps, h1, h2, h3⟩ := ih (fun x hx => h x (by simp [hx])) fun x hx => hD x (by simp [hx])
    refine ⟨{ o with daughters := D e.addr } :: ps, ?_, ?_, ?_⟩
    · simp only [List.map_cons, particles, withD_particle, ho, Option.map_some, h1]
    · simp [h2, hD e (by simp)]
    · simp [h3, parentsOf_eq e o ho]

theorem le_sum_mem (l : List Nat) (x : Nat) (h : x ∈ l) : x ≤ l.sum := by
  induction l with
  | nil => cases h
  | cons y l ih =>
    rw [List.sum_cons]
    rcases List.mem_cons.1 h with rfl | h
    · omega
    · have := ih h; omega

theorem childrenOf_nil (es : List Elem) (x : Nat) (h : ∀ e ∈ es, x ∉ parentsOf e) : childrenOf es x = [] := by
  unfold childrenOf
  rw [List.flatMap_eq_nil_iff]
  intro e he
  rw [List.map_eq_nil_iff, List.filter_eq_nil_iff]
  intro a ha hax
  rw [beq_iff_eq] at hax
  exact h e he (hax ▸ ha)

theorem restoreCol_ok (B pre post : List (Str × Collection)) (c : Str × Collection) (hB : B = pre ++ c :: post) (h : Fit B) :
    restoreCol pre.length (withDaughters (kids pre) B) = .ok (withDaughters (kids (pre ++ [c])) B) := by
  have hget : (withDaughters (kids pre) B)[pre.length]? = some (c.1, { c.2 with elems := c.2.elems.map (Elem.withD (kids pre)) }) := by
    unfold withDaughters
    rw [hB]; simp
  have hcB : c ∈ B := by rw [hB]; simp
  have hk : kids (pre ++ [c]) = fun x => kids pre x ++ if isMC c then childrenOf c.2.elems x else [] := by
    funext x; simp [kids]
  unfold restoreCol
  rw [hget]
  simp only
  rw [hk]
  cases hm : isMC c with
  | false =>
    have hm' : (c.2.type == str "MCParticle" && !c.2.flag.getLsbD 18) = false := hm
    rw [hm']
    simp
  | true =>
    have hm' : (c.2.type == str "MCParticle" && !c.2.flag.getLsbD 18) = true := hm
    rw [hm', if_pos rfl]
    have hin : ∀ e ∈ c.2.elems, e ∈ mcElems B := fun e he => mem_mcElems.2 ⟨c, hcB, hm, he⟩
    have hD : ∀ e ∈ c.2.elems, kids pre e.addr = [] := by
      intro e he
      unfold kids
      rw [List.flatMap_eq_nil_iff]
      intro c' hc'
      split
      · rename_i hm2
        apply childrenOf_nil
        intro e' he' hp
        obtain ⟨p1, p2, hp12⟩ := List.append_of_mem hc'
        have := h.parents p1 c' (p2 ++ c :: post) (by rw [hB, hp12]; simp) hm2 e' he' _ hp
        have hsub : e.addr ∈ mcAddrs pre := by
          rw [hp12]
          unfold mcAddrs at this ⊢
          simp only [List.flatMap_append, List.flatMap_cons, List.flatMap_nil, List.append_nil, List.mem_append] at this ⊢
          rcases this with h | h
          · exact Or.inl h
          · exact Or.inr (Or.inl h)
        have hnd := h.nodup
        rw [hB] at hnd
        unfold mcAddrs at hnd hsub
        rw [List.flatMap_append, List.nodup_append] at hnd
        refine hnd.2.2 _ hsub e.addr ?_ rfl
        rw [List.flatMap_cons, if_pos hm]
        exact List.mem_append.2 (Or.inl (List.mem_map_of_mem he))
      · rfl
    obtain ⟨ps, h1, h2, h3⟩ := particles_withD (kids pre) c.2.elems (fun e he => h.particles c hcB hm e he) hD
    simp only [h1, h2, h3, List.map_map]
    have hmap : List.map ((fun x => x.addr) ∘ Elem.withD (kids pre)) c.2.elems = c.2.elems.map (·.addr) :=
      List.map_congr_left fun e _ => withD_addr _ e
    rw [hmap]
    by_cases hP : (c.2.elems.map fun e => (parentsOf e).length).sum = 0
    · rw [hP, restoreLoop_none]
      · have : ∀ x, childrenOf c.2.elems x = [] := by
          intro x
          apply childrenOf_nil
          intro e he hx
          have h0 : (parentsOf e).length = 0 := by
            have := le_sum_mem _ _ (List.mem_map_of_mem (f := fun e => (parentsOf e).length) he)
            omega
          rw [List.length_eq_zero_iff] at h0
          rw [h0] at hx; cases hx
        simp [this]
      · intro e he
        obtain ⟨o, _, ho⟩ := h.find e (hin e he)
        rw [findParticle_withD, ho]; simp
    · rw [restoreLoop_ok B _ (by omega)]
      · simp
      · intro e he
        obtain ⟨o, h4, h5⟩ := h.find e (hin e he)
        refine ⟨o, h5, (parentsOf_eq e o h4).symm, ?_⟩
        intro p hp
        rw [← parentsOf_eq e o h4] at hp
        have := h.parents pre c post hB hm e he p hp
        have hpB : p ∈ mcAddrs B := by
          rw [hB]
          unfold mcAddrs at this ⊢
          simp only [List.flatMap_append, List.flatMap_cons, List.flatMap_nil, List.append_nil, List.mem_append] at this ⊢
          rcases this with h | h
          · exact Or.inl h
          · exact Or.inr (Or.inl h)
        rw [mcAddrs_eq, List.mem_map] at hpB
        obtain ⟨e', he', rfl⟩ := hpB
        obtain ⟨o', _, ho'⟩ := h.find e' he'
        rw [ho']; simp

theorem restoreFrom_ok (B pre post : List (Str × Collection)) (hB : B = pre ++ post) (h : Fit B) :
    restoreFrom pre.length post.length (withDaughters (kids pre) B) = .ok (withDaughters (kids B) B) := by
  induction post generalizing pre with
  | nil => rw [List.append_nil] at hB; subst hB; rfl
  | cons c post ih =>
    simp only [List.length_cons, restoreFrom]
    rw [restoreCol_ok B pre post c hB h]
    simp only
    have := ih (pre ++ [c]) (by rw [hB]; simp)
    rw [List.length_append] at this
    exact this

theorem withDaughters_self (B : List (Str × Collection)) (h : ∀ e ∈ allElems B, daughtersOf e = []) : withDaughters (fun _ => []) B = B := by
  unfold withDaughters
  conv => rhs; rw [← List.map_id B]
  refine List.map_congr_left fun c hc => ?_
  obtain ⟨n, type, flag, params, elems⟩ := c
  simp only [id, Prod.mk.injEq, Collection.mk.injEq, true_and]
  conv => rhs; rw [← List.map_id elems]
  refine List.map_congr_left fun e he => ?_
  have := h e (List.mem_flatMap.2 ⟨_, hc, he⟩)
  obtain ⟨a, o⟩ := e
  unfold Elem.withD
  cases o with
  | none => rfl
  | some o =>
    cases o <;> try rfl
    rename_i o
    simp only [daughtersOf] at this
    simp only [id, ← this]

theorem restoreRelations_ok (B : List (Str × Collection)) (h : Fit B) (hd : ∀ e ∈ allElems B, daughtersOf e = []) :
    restoreRelations B = .ok (withDaughters (kids B) B) := by
  have := restoreFrom_ok B [] B rfl h
  have hk : kids [] = fun _ => [] := by funext x; rfl
  rw [hk, withDaughters_self B hd] at this
  exact this

end Lcio
