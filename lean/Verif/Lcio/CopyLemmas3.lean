import Verif.Lcio.CopyLemmas2
/-
Storing an event that was loaded.
-/
namespace Lcio
open Sio Spec

theorem _root_.Spec.All2.mapLeft {α β γ : Type} {S : γ → β → Prop} {l : List α} {l' : List β} (g : α → γ) (h : All2 S (l.map g) l') :
    All2 (fun a b => S (g a) b) l l' := by
  refine ⟨by rw [← h.1, List.length_map], ?_⟩
  intro i a b ha hb
  exact h.2 i (g a) b (by rw [List.getElem?_map, ha]; rfl) hb

theorem setD_id (o : Obj) (ds : List Nat) (h : ∀ m, o ≠ .mcParticle m) : o.setD ds = o := by
  cases o <;> first | rfl | exact absurd rfl (h _)

section
variable {std : Std Pid} {T : Nat → Nat} {W L : List (Str × Collection)} {D : Nat → List Nat}

/-- The elements that can be pointed at. -/
def pointable (W : List (Str × Collection)) : List Elem :=
  (W.filter fun c => !c.2.flag.getLsbD 18 && canPointAt c.2.flag (kindD c.2)).flatMap fun c => c.2.elems

theorem mem_pointable {e : Elem} : e ∈ pointable W ↔ ∃ c ∈ W, c.2.flag.getLsbD 18 = false ∧ canPointAt c.2.flag (kindD c.2) = true ∧ e ∈ c.2.elems := by
  unfold pointable
  simp only [List.mem_flatMap, List.mem_filter, Bool.and_eq_true, Bool.not_eq_true']
  constructor
  · rintro ⟨c, ⟨h1, h2, h3⟩, h4⟩; exact ⟨c, h1, h2, h3, h4⟩
  · rintro ⟨c, h1, h2, h3, h4⟩; exact ⟨c, ⟨h1, h2, h3⟩, h4⟩

theorem pointable_tagged (W : List (Str × Collection)) : ((pointable W).map (·.addr)).Sublist (allTagged W) := by
  unfold pointable allTagged
  induction W with
  | nil => exact List.Sublist.refl _
  | cons c W ih =>
    rw [List.filter_cons, List.flatMap_cons]
    split
    · rename_i hb
      rw [Bool.and_eq_true, Bool.not_eq_true'] at hb
      rw [List.flatMap_cons, List.map_append]
      refine List.Sublist.append ?_ ih
      unfold tagged
      rw [if_neg (by rw [hb.1]; exact Bool.false_ne_true), hb.2]
      induction c.2.elems with
      | nil => exact List.Sublist.refl _
      | cons e es ih =>
        rw [List.flatMap_cons, List.map_cons, ← List.singleton_append]
        exact List.Sublist.append (List.sublist_append_right _ _) ih
    · exact ih.trans (List.sublist_append_right _ _)

/-- What became of an element that can be pointed at. -/
theorem pointable_loaded (hL : All2 (LoadedAs std T) W L) (hc : ∀ c ∈ W, CollectionOk std (kindD c.2) c.2) (x : Elem)
    (hx : x ∈ pointable (withDaughters D L)) :
    ∃ e ∈ pointable W, x.addr = T e.addr ∧ ∃ flag o ds, e.obj = some o ∧ x.obj = some ((keptObj std flag T ((pidsOf o).map fun p => T p.addr) o).setD ds) := by
  obtain ⟨c1, hc1, h18, hcp, hx⟩ := mem_pointable.1 hx
  unfold withDaughters at hc1
  obtain ⟨l, hl, rfl⟩ := List.mem_map.1 hc1
  obtain ⟨w, hw, hwl⟩ := hL.mem_right hl
  simp only at h18 hcp hx
  obtain ⟨e', he', rfl⟩ := List.mem_map.1 hx
  obtain ⟨e, he, hee⟩ := hwl.2.elems.mem_right he'
  have hfb := written_bits std _ w.2 (hc w hw)
  rw [← hwl.2.flag] at hfb
  unfold LoadedElem at hee
  rw [if_neg (by rw [h18]; exact Bool.false_ne_true)] at hee
  obtain ⟨⟨o, ho, ho'⟩, ha⟩ := hee
  have hkd : kindD l.2 = kindD w.2 := by unfold kindD; rw [hwl.2.type]
  have hcp' : canPointAt l.2.flag (kindD w.2) = true := by rw [← hkd]; exact hcp
  refine ⟨e, mem_pointable.2 ⟨w, hw, ?_, ?_, he⟩, ?_, l.2.flag, o, D e'.addr, ho, withD_some D e' _ ho'⟩
  · rw [← hfb 18 (by decide)]; exact h18
  · rw [← canPointAt_congr l.2.flag w.2.flag _ hfb]; exact hcp'
  · rw [withD_addr]; exact ha hcp'

theorem pointable_found (hL : All2 (LoadedAs std T) W L) (hc : ∀ c ∈ W, CollectionOk std (kindD c.2) c.2) (e : Elem) (he : e ∈ pointable W) :
    ∃ x ∈ pointable (withDaughters D L), x.addr = T e.addr := by
  obtain ⟨w, hw, h18, hcp, he⟩ := mem_pointable.1 he
  obtain ⟨l, hl, hwl⟩ := hL.mem_left hw
  obtain ⟨e', he', hee⟩ := hwl.2.elems.mem_left he
  have hfb := written_bits std _ w.2 (hc w hw)
  rw [← hwl.2.flag] at hfb
  have hkd : kindD l.2 = kindD w.2 := by unfold kindD; rw [hwl.2.type]
  unfold LoadedElem at hee
  rw [if_neg (by rw [hfb 18 (by decide), h18]; exact Bool.false_ne_true)] at hee
  have hcp' : canPointAt l.2.flag (kindD w.2) = true := by rw [canPointAt_congr l.2.flag w.2.flag _ hfb]; exact hcp
  refine ⟨Elem.withD D e', mem_pointable.2 ⟨(l.1, { l.2 with elems := l.2.elems.map (Elem.withD D) }), List.mem_map.2 ⟨l, hl, rfl⟩, ?_, ?_, ?_⟩, ?_⟩
  · show l.2.flag.getLsbD 18 = false
    rw [hfb 18 (by decide)]; exact h18
  · show canPointAt l.2.flag (kindD l.2) = true
    rw [hkd]; exact hcp'
  · exact List.mem_map_of_mem (f := Elem.withD D) he'
  · rw [withD_addr]; exact hee.2 hcp'

theorem objectAt_loaded (hL : All2 (LoadedAs std T) W L) (hc : ∀ c ∈ W, CollectionOk std (kindD c.2) c.2) (hT : Pointers W T) (hnd : (allTagged W).Nodup)
    (e : Elem) (he : e ∈ pointable W) (o : Obj) (ho : e.obj = some o) :
    ∃ flag ds, objectAt (withDaughters D L) (T e.addr) = some ((keptObj std flag T ((pidsOf o).map fun p => T p.addr) o).setD ds) := by
  unfold objectAt
  change ∃ flag ds, ((pointable (withDaughters D L)).find? _).bind _ = _
  cases hf : (pointable (withDaughters D L)).find? (fun x => x.addr == T e.addr) with
  | none =>
    obtain ⟨x, hx, ha⟩ := pointable_found (D := D) hL hc e he
    have := List.find?_eq_none.1 hf x hx
    rw [ha] at this
    simp at this
  | some x =>
    have ha : x.addr = T e.addr := by
      have := List.find?_some hf
      simpa using this
    obtain ⟨e', he', ha', flag, o', ds, ho', hx⟩ := pointable_loaded hL hc x (List.mem_of_find?_eq_some hf)
    have hs := pointable_tagged W
    have hm : ∀ e ∈ pointable W, e.addr ∈ allTagged W := fun e he => hs.subset (List.mem_map_of_mem (f := fun e : Elem => e.addr) he)
    have hee : e' = e := nodup_map_inj (·.addr) (pointable W) (hnd.sublist hs) e' e he' he
      (hT.distinct _ (hm e' he') _ (hm e he) (by rw [← ha', ha]))
    subst hee
    rw [ho, Option.some.injEq] at ho'
    subst ho'
    exact ⟨flag, ds, hx⟩

/-- The collections that are stored again. -/
theorem again_all (hL : All2 (LoadedAs std T) W L) (hF : ∀ c ∈ W, First std c.2) (hT : Pointers W T) (hnd : (allTagged W).Nodup) (hv : VertexSubsets W) :
    All2 (fun c r => r.1 = c.1 ∧ Again std T c.2 r.2) W (resolved (withDaughters D L)) := by
  have hc : ∀ c ∈ W, CollectionOk std (kindD c.2) c.2 := fun c h => (hF c h).ok
  have : resolved (withDaughters D L) = L.map fun l => if l.2.flag.getLsbD 18 then
      (l.1, { l.2 with elems := (l.2.elems.map (Elem.withD D)).map fun e => ⟨e.addr, objectAt (withDaughters D L) e.addr⟩ })
      else (l.1, { l.2 with elems := l.2.elems.map (Elem.withD D) }) := by
    unfold resolved
    generalize objectAt (withDaughters D L) = f
    unfold withDaughters
    rw [List.map_map]
    rfl
  rw [this]
  refine hL.mapRight _ fun w hw l hl hwl => ?_
  have hfb := written_bits std _ w.2 (hc w hw)
  rw [← hwl.2.flag] at hfb
  have h18 := hfb 18 (by decide)
  cases hb : w.2.flag.getLsbD 18
  · rw [if_neg (by rw [h18, hb]; exact Bool.false_ne_true)]
    refine ⟨hwl.1, hwl.2.type, hwl.2.flag, hwl.2.params, ?_⟩
    refine hwl.2.elems.mapRight _ fun e he e' _ hee => ?_
    unfold LoadedElem at hee
    rw [if_neg (by rw [h18, hb]; exact Bool.false_ne_true)] at hee
    unfold AgainElem
    rw [if_neg (by rw [hb]; exact Bool.false_ne_true)]
    obtain ⟨⟨o, ho, ho'⟩, ha⟩ := hee
    refine ⟨⟨o, D e'.addr, ho, withD_some D e' _ ho'⟩, fun hcp => ?_⟩
    rw [withD_addr]
    exact ha (by rw [canPointAt_congr l.2.flag w.2.flag _ hfb]; exact hcp)
  · rw [if_pos (by rw [h18, hb])]
    refine ⟨hwl.1, hwl.2.type, hwl.2.flag, hwl.2.params, ?_⟩
    rw [List.map_map]
    refine hwl.2.elems.mapRight _ fun e he e' _ hee => ?_
    unfold LoadedElem at hee
    rw [if_pos (by rw [h18, hb])] at hee
    unfold AgainElem
    rw [if_pos hb, hee]
    refine ⟨rfl, fun hk v hvo => ?_⟩
    obtain ⟨d, hd, hd18, hdk, hed⟩ := (hv w hw hb).2 hk e he
    obtain ⟨flag, ds, hob⟩ := objectAt_loaded (D := D) hL hc hT hnd e (mem_pointable.2 ⟨d, hd, hd18, by rw [hdk]; rfl, hed⟩) _ hvo
    exact ⟨T, hob⟩

end

section
variable {std : Std Pid} {T : Nat → Nat} {W R : List (Str × Collection)}

def AgainAs (std : Std Pid) (T : Nat → Nat) (c r : Str × Collection) : Prop := r.1 = c.1 ∧ Again std T c.2 r.2

theorem AgainAs.isMC {c r : Str × Collection} (h : AgainAs std T c r) (hc : First std c.2) : Spec.isMC r = Spec.isMC c := by
  unfold Spec.isMC
  rw [h.2.bits hc 18 (by decide), h.2.type]

theorem AgainAs.mc_elem {c r : Str × Collection} (h : AgainAs std T c r) (hc : First std c.2) (hm : Spec.isMC c = true) :
    All2 (fun e e1 => e1.addr = T e.addr ∧ parentsOf e1 = (parentsOf e).map T) c.2.elems r.2.elems := by
  unfold Spec.isMC at hm
  rw [Bool.and_eq_true, Bool.not_eq_true'] at hm
  have hk : kindD c.2 = .mcParticle := (kind_mc c.2.type _ hc.ok.kind).1 hm.1
  refine h.2.elems.mono fun e he e1 _ hee => ?_
  unfold AgainElem at hee
  rw [if_neg (by rw [hm.2]; exact Bool.false_ne_true)] at hee
  obtain ⟨⟨o, ds, ho, ho1⟩, ha⟩ := hee
  obtain ⟨o', ho', hok⟩ := hc.ok.objects hm.2 e he
  rw [ho, Option.some.injEq] at ho'
  subst ho'
  refine ⟨ha (by rw [hk]; rfl), ?_⟩
  rw [hk] at hok
  cases o <;> simp only [ObjOk] at hok
  unfold parentsOf
  rw [ho, ho1]
  rfl

theorem again_mcAddrs (h : All2 (AgainAs std T) W R) (hF : ∀ c ∈ W, First std c.2) : mcAddrs R = (mcAddrs W).map T := by
  unfold mcAddrs
  rw [List.map_flatMap]
  apply h.flatMap_eq
  intro a ha b _ hab
  rw [hab.isMC (hF a ha)]
  cases hm : isMC a
  · rfl
  · simp only [if_true]
    rw [List.map_map]
    exact (hab.mc_elem (hF a ha) hm).map_eq _ _ fun x _ y _ hxy => hxy.1

theorem again_parents (h : All2 (AgainAs std T) W R) (hF : ∀ c ∈ W, First std c.2) (hp : ParentsEarlier W) : ParentsEarlier R := by
  rintro pre c post rfl hm e1 he1 p hp1
  obtain ⟨w1, w, w2, rfl, h1, h2, h3⟩ := h.split
  have hw := hF w (by simp)
  rw [h2.isMC hw] at hm
  obtain ⟨e, he, hee⟩ := (h2.mc_elem hw hm).mem_right he1
  rw [hee.2] at hp1
  obtain ⟨q, hq, rfl⟩ := List.mem_map.1 hp1
  have hq' := hp w1 w w2 rfl hm e he q hq
  have := again_mcAddrs (W := w1 ++ [w]) (R := pre ++ [c]) (T := T) (std := std)
    (by
      refine ⟨by simp [h1.1], ?_⟩
      intro i a b ha hb
      by_cases hi : i < w1.length
      · rw [List.getElem?_append_left hi] at ha
        rw [List.getElem?_append_left (h1.1 ▸ hi)] at hb
        exact h1.2 i a b ha hb
      · rw [List.getElem?_append_right (by omega)] at ha
        rw [List.getElem?_append_right (by rw [← h1.1]; omega), ← h1.1] at hb
        cases hj : i - w1.length with
        | zero => rw [hj] at ha hb; cases ha; cases hb; exact h2
        | succ j => rw [hj] at ha; cases ha)
    (fun x hx => hF x (by
      rcases List.mem_append.1 hx with hx | hx
      · exact List.mem_append_left _ hx
      · simp at hx; simp [hx]))
  rw [this]
  exact List.mem_map_of_mem (f := T) hq'

theorem again_tagged (hl : Laws std) (h : All2 (AgainAs std T) W R) (hF : ∀ c ∈ W, First std c.2) : (allTagged R).Perm ((allTagged W).map T) := by
  unfold allTagged
  rw [List.map_flatMap]
  exact h.flatMap_perm _ _ fun a ha b _ hab => hab.2.tagged hl (hF a ha)

theorem again_subsets (hl : Laws std) (h : All2 (AgainAs std T) W R) (hF : ∀ c ∈ W, First std c.2) (hs : SubsetsInside W) : SubsetsInside R := by
  intro r hr h18 e1 he1
  obtain ⟨w, hw, hwr⟩ := h.mem_right hr
  rw [hwr.2.bits (hF w hw) 18 (by decide)] at h18
  obtain ⟨e, he, hee⟩ := hwr.2.elems.mem_right he1
  unfold AgainElem at hee
  rw [if_pos h18] at hee
  rw [hee.1]
  exact (again_tagged hl h hF).symm.subset (List.mem_map_of_mem (f := T) (hs w hw h18 e he))

/-- The blocks are as long as before. -/
theorem again_block (hl : Laws std) {c r : Str × Collection} (h : AgainAs std T c r) (hc : First std c.2) :
    (shapes (blockItems (colBlock std r))).Perm (shapes (blockItems (colBlock std c))) ∧ (blockFits (colBlock std c) → blockFits (colBlock std r)) := by
  have hs := h.2.shapes hl hc
  have hlen := shapes_len hs
  have hbl : blockLen (colBlock std r) = blockLen (colBlock std c) := by
    unfold blockLen blockHeaderLen colBlock
    simp only [hlen, h.1]
  constructor
  · unfold blockItems
    rw [shapes_append, shapes_append]
    refine List.Perm.append (List.Perm.of_eq ?_) hs
    unfold hdrItems
    rw [hbl]
    unfold colBlock
    simp only [h.1]
  · rintro ⟨h1, h2, h3⟩
    refine ⟨?_, shapes_fits hs h2, by rw [hbl]; exact h3⟩
    show r.1.length + 3 < 2 ^ 32
    rw [h.1]; exact h1

theorem again_dataLen (hl : Laws std) (h : All2 (AgainAs std T) W R) (hF : ∀ c ∈ W, First std c.2) :
    dataLen (R.map (colBlock std)) = dataLen (W.map (colBlock std)) := by
  unfold dataLen blocksItems
  apply shapes_len
  rw [shapes_flatMap, shapes_flatMap, List.flatMap_map, List.flatMap_map]
  exact h.flatMap_perm _ _ fun a ha b _ hab => (again_block hl hab (hF a ha)).1

theorem dataLen_filter (p : WBlock → Bool) (bs : List WBlock) : dataLen (bs.filter p) ≤ dataLen bs := by
  unfold dataLen blocksItems
  induction bs with
  | nil => exact Nat.le_refl _
  | cons b bs ih =>
    have happ : ∀ is js : List Item, (bytesOf (is ++ js)).length = (bytesOf is).length + (bytesOf js).length := by
      intro is js; rw [bytesOf_len, bytesOf_len, bytesOf_len, List.map_append, List.sum_append]
    rw [List.filter_cons]
    split
    · rw [List.flatMap_cons, List.flatMap_cons, happ, happ]
      omega
    · rw [List.flatMap_cons, happ]
      omega

end

end Lcio
