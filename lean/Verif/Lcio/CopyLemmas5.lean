import Verif.Lcio.CopyLemmas4
/-
What was loaded can be copied again.
-/
namespace Lcio
open Sio Spec

/-- Where the objects of an event that was loaded are. -/
theorem resolved_obj (cols : List (Str × Collection)) (c : Str × Collection) (hc : c ∈ resolved cols) (e : Elem) (he : e ∈ c.2.elems) (o : Obj) (ho : e.obj = some o) :
    ∃ d ∈ resolved cols, d.2.flag.getLsbD 18 = false ∧ ∃ e' ∈ d.2.elems, e'.obj = some o := by
  have keep : ∀ d ∈ cols, d.2.flag.getLsbD 18 = false → d ∈ resolved cols := by
    intro d hd hb
    refine List.mem_map.2 ⟨d, hd, ?_⟩
    rw [if_neg (by rw [hb]; exact Bool.false_ne_true)]
  obtain ⟨d, hd, hdc⟩ := List.mem_map.1 hc
  cases hb : d.2.flag.getLsbD 18
  · rw [if_neg (by rw [hb]; exact Bool.false_ne_true)] at hdc
    subst hdc
    exact ⟨d, hc, hb, e, he, ho⟩
  · rw [if_pos hb] at hdc
    subst hdc
    obtain ⟨e0, -, rfl⟩ := List.mem_map.1 he
    simp only [objectAt] at ho
    change ((pointable cols).find? _).bind _ = _ at ho
    cases hf : (pointable cols).find? (fun x => x.addr == e0.addr) with
    | none => rw [hf] at ho; cases ho
    | some x =>
      rw [hf] at ho
      obtain ⟨d', h1, h2, -, h3⟩ := mem_pointable.1 (List.mem_of_find?_eq_some hf)
      exact ⟨d', keep d' h1 h2, h2, x, h3, ho⟩

section
variable {std : Std Pid} {T : Nat → Nat} {W L : List (Str × Collection)} {D : Nat → List Nat}

/-- What was loaded can be copied again. -/
theorem copyable_again (hl : Laws std) (hL : All2 (LoadedAs std T) W L) (hF : ∀ c ∈ W, First std c.2) (hT : Pointers W T) (hnd : (allTagged W).Nodup) (hv : VertexSubsets W) :
    Copyable (resolved (withDaughters D L)) := by
  have hA : All2 (AgainAs std T) W (resolved (withDaughters D L)) := again_all hL hF hT hnd hv
  have hobj : ∀ c ∈ resolved (withDaughters D L), ∀ e ∈ c.2.elems, ∀ o, e.obj = some o → ∃ w ∈ W, ∃ e0 ∈ w.2.elems, ∃ flag o0 ds, e0.obj = some o0 ∧
      o = (keptObj std flag T ((pidsOf o0).map fun p => T p.addr) o0).setD ds := by
    intro c hc e he o ho
    obtain ⟨d, hd, hb, e', he', ho'⟩ := resolved_obj _ c hc e he o ho
    obtain ⟨w, hw, hwd⟩ := hA.mem_right hd
    obtain ⟨e0, he0, hee⟩ := hwd.2.elems.mem_right he'
    unfold AgainElem at hee
    rw [if_neg (by rw [← hwd.2.bits (hF w hw) 18 (by decide), hb]; exact Bool.false_ne_true)] at hee
    obtain ⟨⟨o0, ds, h1, h2⟩, -⟩ := hee
    rw [ho', Option.some.injEq] at h2
    exact ⟨w, hw, e0, he0, _, o0, ds, h1, h2⟩
  refine ⟨?_, ?_, ?_⟩
  · intro c hc e he o ho p hp
    obtain ⟨w, hw, e0, he0, flag, o0, ds, h1, rfl⟩ := hobj c hc e he o ho
    have hnum := (hF w hw).numbers e0 he0 o0 h1
    have hpk := (pids_kept std flag T ((pidsOf o0).map fun p => T p.addr) o0 (List.length_map ..) (hl.adds o0 hnum) ds).1
    obtain ⟨q, hq, e⟩ := List.mem_map.1 (hpk.subset (List.mem_map_of_mem (f := fun p : Pid => { p with addr := 0 }) hp))
    rw [show p.likelihood = q.likelihood from (congrArg Pid.likelihood e).symm]
    exact hnum q hq
  · intro c hc h18
    obtain ⟨w, hw, hwc⟩ := hA.mem_right hc
    have hk : kindD c.2 = kindD w.2 := hwc.2.kind
    have hw18 : w.2.flag.getLsbD 18 = true := by rw [← hwc.2.bits (hF w hw) 18 (by decide)]; exact h18
    rw [hk]
    refine ⟨(hv w hw hw18).1, fun hkv e he => ?_⟩
    -- the vertex in the collection that was stored
    obtain ⟨e0, he0, hee⟩ := hwc.2.elems.mem_right he
    unfold AgainElem at hee
    rw [if_pos hw18] at hee
    obtain ⟨d0, hd0, hd18, hdk, hed⟩ := (hv w hw hw18).2 hkv e0 he0
    obtain ⟨d, hd, hdd⟩ := hA.mem_left hd0
    obtain ⟨e', he', hee'⟩ := hdd.2.elems.mem_left hed
    have hd18' : d.2.flag.getLsbD 18 = false := by rw [hdd.2.bits (hF d0 hd0) 18 (by decide)]; exact hd18
    have hdk' : kindD d.2 = .vertex := by rw [hdd.2.kind]; exact hdk
    have hcp : canPointAt d0.2.flag (kindD d0.2) = true := by rw [hdk]; rfl
    unfold AgainElem at hee'
    rw [if_neg (by rw [hd18]; exact Bool.false_ne_true)] at hee'
    refine ⟨d, hd, hd18', hdk', ?_⟩
    -- it is what is found at the address
    have ha : e'.addr = e.addr := by rw [hee'.2 hcp, hee.1]
    obtain ⟨c1, hc1, hcc⟩ := List.mem_map.1 hc
    obtain ⟨d1, hd1, hdd1⟩ := List.mem_map.1 hd
    have hd1b : d1.2.flag.getLsbD 18 = false := by
      cases hb : d1.2.flag.getLsbD 18
      · rfl
      · rw [if_pos hb] at hdd1
        rw [← hdd1] at hd18'
        rw [← hd18', ← hb]
    rw [if_neg (by rw [hd1b]; exact Bool.false_ne_true)] at hdd1
    subst hdd1
    have hc1b : c1.2.flag.getLsbD 18 = true := by
      cases hb : c1.2.flag.getLsbD 18
      · rw [if_neg (by rw [hb]; exact Bool.false_ne_true)] at hcc
        subst hcc
        rw [← h18, hb]
      · rfl
    rw [if_pos hc1b] at hcc
    subst hcc
    obtain ⟨e1, -, rfl⟩ := List.mem_map.1 he
    simp only at ha
    have hpe' : e' ∈ pointable (withDaughters D L) := mem_pointable.2 ⟨d1, hd1, hd1b, by rw [hdk']; rfl, he'⟩
    have hnd2 : (allTagged (withDaughters D L)).Nodup := by
      rw [← tagged_resolved]
      exact (again_tagged hl hA hF).nodup_iff.2 (nodup_map_of_inj _ hnd hT.distinct)
    have hf : objectAt (withDaughters D L) e1.addr = e'.obj := by
      unfold objectAt
      change ((pointable (withDaughters D L)).find? _).bind _ = _
      cases hf : (pointable (withDaughters D L)).find? (fun x => x.addr == e1.addr) with
      | none =>
        have := List.find?_eq_none.1 hf e' hpe'
        rw [ha] at this
        simp at this
      | some x =>
        have hxa : x.addr = e1.addr := by have := List.find?_some hf; simpa using this
        have : x = e' := nodup_map_inj (·.addr) (pointable (withDaughters D L)) (hnd2.sublist (pointable_tagged _)) x e' (List.mem_of_find?_eq_some hf) hpe' (by rw [hxa, ha])
        subst this
        rfl
    rw [hf, ← ha]
    exact he'
  · intro c hc e he o ho
    obtain ⟨w, hw, e0, he0, flag, o0, ds, h1, h2⟩ := hobj c hc e he _ ho
    cases o0 <;> simp only [keptObj, Obj.setD, reduceCtorEq, Obj.generic.injEq] at h2
    subst h2
    show (str "LCGenericObject" : Str) ≠ []
    decide

end

end Lcio
