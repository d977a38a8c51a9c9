import Verif.Lcio.CopyLemmas4
import Verif.Spec.Extend
/-
An event that was loaded and to which collections were added: what becomes of the old collections.
-/
namespace Lcio
open Sio Spec

theorem flatMap_sublist {α β : Type} (f : α → List β) {l l' : List α} (h : l.Sublist l') (hn : l'.Nodup) (hf : ∀ c ∈ l', c ∉ l → f c = []) :
    l'.flatMap f = l.flatMap f := by
  induction h with
  | slnil => rfl
  | @cons l l' a h ih =>
    have h1 := List.nodup_cons.1 hn
    rw [List.flatMap_cons, hf a List.mem_cons_self (fun hm => h1.1 (h.subset hm)), List.nil_append]
    exact ih h1.2 fun c hc hcl => hf c (List.mem_cons_of_mem _ hc) hcl
  | @cons_cons l l' a h ih =>
    have h1 := List.nodup_cons.1 hn
    rw [List.flatMap_cons, List.flatMap_cons, ih h1.2 fun c hc hcl => ?_]
    refine hf c (List.mem_cons_of_mem _ hc) fun hm => ?_
    rcases List.mem_cons.1 hm with rfl | hm
    · exact h1.1 hc
    · exact hcl hm

theorem no_children (es : List Elem) (x : Nat) (h : ∀ e ∈ es, x ∉ parentsOf e) : childrenOf es x = [] := by
  unfold childrenOf
  rw [List.flatMap_eq_nil_iff]
  intro e he
  rw [List.map_eq_nil_iff, List.filter_eq_nil_iff]
  intro p hp hpx
  exact h e he ((beq_iff_eq.1 hpx) ▸ hp)

theorem same_extended (std : Std Pid) (hl : Laws std) (W L A L2 : List (Str × Collection)) (T T2 : Nat → Nat) (hF : ∀ c ∈ W, First std c.2)
    (hL : All2 (LoadedAs std T) W L) (hT : Pointers W T) (hnd : (allTagged W).Nodup) (hv : VertexSubsets W)
    (hX : (resolved (withDaughters (kids L) L)).Sublist A) (hAn : A.Nodup) (hok2 : ∀ c ∈ A, CollectionOk std (kindD c.2) c.2) (hp2 : ParentsEarlier A)
    (hnew : ∀ c ∈ A, c ∉ resolved (withDaughters (kids L) L) → isMC c = true → ∀ e ∈ c.2.elems, ∀ p ∈ parentsOf e, p ∉ mcAddrs (withDaughters (kids L) L))
    (h0 : 0 ∉ allTagged A) (hT2 : Pointers A T2) (hL2 : All2 (LoadedAs std T2) A L2) :
    ∀ c ∈ withDaughters (kids L) L, ∃ c' ∈ withDaughters (kids L2) L2, SameCol T2 c c' := by
  have hA : All2 (AgainAs std T) W (resolved (withDaughters (kids L) L)) := again_all hL hF hT hnd hv
  have hmcp : ∀ e ∈ mcElems A, ∀ p ∈ parentsOf e, p ∈ allTagged A := by
    intro e he p hp
    obtain ⟨c, hc, hm, hec⟩ := mem_mcElems.1 he
    obtain ⟨pre, post, hW⟩ := List.append_of_mem hc
    have := hp2 pre c post hW hm e hec p hp
    apply (mcAddrs_tagged hok2).subset
    rw [hW]
    unfold mcAddrs at this ⊢
    simp only [List.flatMap_append, List.flatMap_cons, List.flatMap_nil, List.append_nil, List.mem_append] at this ⊢
    rcases this with h | h
    · exact Or.inl h
    · exact Or.inr (Or.inl h)
  have hkids : ∀ x ∈ mcAddrs (withDaughters (kids L) L), x ∈ allTagged A → kids L2 (T2 x) = (kids L x).map T2 := by
    intro x hxm hx
    rw [kids_loaded _ hT2.distinct hL2 hok2 hmcp x hx]
    congr 1
    rw [← kids_withD (kids L) L x]
    have h1 : childrenOf (mcElems A) x = kids A x := by
      unfold childrenOf mcElems kids
      rw [List.flatMap_assoc]
      congr 1
      funext c
      split <;> rfl
    rw [h1]
    unfold kids
    refine flatMap_sublist _ hX hAn fun c hc hcn => ?_
    split
    · next hm => exact no_children _ _ fun e he hp => hnew c hc hcn hm e he x hp hxm
    · rfl
  intro c1 hc1
  obtain ⟨r, hr, hre⟩ : ∃ r, r ∈ resolved (withDaughters (kids L) L) ∧
      r = if c1.2.flag.getLsbD 18 then (c1.1, { c1.2 with elems := c1.2.elems.map fun e => ⟨e.addr, objectAt (withDaughters (kids L) L) e.addr⟩ }) else c1 :=
    ⟨_, List.mem_map_of_mem hc1, rfl⟩
  have hrA := hX.subset hr
  obtain ⟨l2, hl2, hrl⟩ := hL2.mem_left hrA
  refine ⟨_, List.mem_map_of_mem hl2, ?_⟩
  obtain ⟨w, hw, hwr⟩ := hA.mem_right hr
  have hwrit := hwr.2.written (hF w hw)
  have hty : r.2.type = c1.2.type := by rw [hre]; split <;> rfl
  have hfl : r.2.flag = c1.2.flag := by rw [hre]; split <;> rfl
  have hpa : r.2.params = c1.2.params := by rw [hre]; split <;> rfl
  have hnm : r.1 = c1.1 := by rw [hre]; split <;> rfl
  have hfl2 : l2.2.flag = c1.2.flag := by rw [hrl.2.flag, hwrit, hfl]
  refine ⟨by show l2.1 = c1.1; rw [hrl.1, hnm], by show l2.2.type = c1.2.type; rw [hrl.2.type, hty], hfl2,
    by show l2.2.params = c1.2.params; rw [hrl.2.params, hwrit, hpa], ?_⟩
  have hel := hrl.2.elems
  have hkr : kindD r.2 = kindD c1.2 := by unfold kindD; rw [hty]
  cases hb : c1.2.flag.getLsbD 18
  · rw [if_neg (by rw [hb]; exact Bool.false_ne_true)] at hre
    subst hre
    refine hel.mapRight _ fun e1 he1 e2 _ hee => ?_
    simp only [Bool.false_eq_true, if_false]
    unfold LoadedElem at hee
    rw [if_neg (by rw [hfl2, hb]; exact Bool.false_ne_true)] at hee
    obtain ⟨⟨o1, ho1, ho2⟩, ha⟩ := hee
    rw [hfl2] at ho2 ha
    refine ⟨fun hcp => by rw [withD_addr]; exact ha hcp, o1, _, ho1, withD_some _ _ _ ho2, ?_⟩
    -- what it was
    obtain ⟨l, hl', hlc⟩ := List.mem_map.1 hc1
    obtain ⟨w', hw', hwl⟩ := hL.mem_right hl'
    have he1' := he1
    rw [← hlc] at he1'
    simp only at he1'
    obtain ⟨e', he', hee'⟩ := List.mem_map.1 he1'
    obtain ⟨e, he, hle⟩ := hwl.2.elems.mem_right he'
    have hlf : l.2.flag = r.2.flag := by rw [← hlc]
    unfold LoadedElem at hle
    rw [hlf, if_neg (by rw [hb]; exact Bool.false_ne_true)] at hle
    obtain ⟨⟨o, ho, hoe'⟩, ha'⟩ := hle
    have ho1e : o1 = (keptObj std r.2.flag T ((pidsOf o).map fun p => T p.addr) o).setD (kids L e'.addr) := by
      have := withD_some (kids L) e' _ hoe'
      rw [hee', ho1, Option.some.injEq] at this
      exact this
    have hnum := (hF w' hw').numbers e he o ho
    have hsame := same_kept std hl r.2.flag T T2 (hT2.null 0 h0) ((pidsOf o).map fun p => T p.addr) o (List.length_map ..) hnum (kids L e'.addr) o1 ho1e
    by_cases hmc : ∃ m, o1 = .mcParticle m
    · -- daughters
      obtain ⟨m, hm⟩ := hmc
      obtain ⟨o1', ho1', hok1⟩ := (hok2 r hrA).objects hb e1 he1
      rw [ho1, Option.some.injEq] at ho1'
      subst ho1'
      have hk : kindD r.2 = .mcParticle := by
        rw [hm] at hok1
        generalize kindD r.2 = k at hok1
        cases k <;> simp only [ObjOk] at hok1
        rfl
      have hcp : canPointAt r.2.flag (kindD r.2) = true := by rw [hk]; rfl
      have hxa : e1.addr = e'.addr := by rw [← hee', withD_addr]
      have hx : e1.addr ∈ allTagged A := by
        unfold allTagged
        refine List.mem_flatMap.2 ⟨r, hrA, ?_⟩
        unfold tagged
        rw [if_neg (by rw [hb]; exact Bool.false_ne_true), hcp]
        exact List.mem_flatMap.2 ⟨e1, he1, List.mem_append_right _ (by simp)⟩
      have hxm : e1.addr ∈ mcAddrs (withDaughters (kids L) L) := by
        rw [mcAddrs_eq]
        refine List.mem_map_of_mem (mem_mcElems.2 ⟨r, hc1, ?_, he1⟩)
        unfold isMC
        rw [(kind_mc r.2.type _ (hok2 r hrA).kind).2 hk, hb]; rfl
      rw [ha hcp, hkids _ hxm hx, hxa]
      exact hsame
    · have hne : ∀ ds ds', (keptObj std r.2.flag T2 ((pidsOf o1).map fun p => T2 p.addr) o1).setD ds =
          (keptObj std r.2.flag T2 ((pidsOf o1).map fun p => T2 p.addr) o1).setD ds' := by
        intro ds ds'
        cases o1 <;> first | rfl | exact absurd ⟨_, rfl⟩ hmc
      rw [hne _ ((kids L e'.addr).map T2)]
      exact hsame
  · rw [if_pos hb] at hre
    subst hre
    refine (All2.mapLeft _ hel).mapRight _ fun e1 he1 e2 _ hee => ?_
    simp only [if_true]
    unfold LoadedElem at hee
    rw [if_pos (by rw [hfl2, hb])] at hee
    rw [hee]
    rfl

end Lcio
