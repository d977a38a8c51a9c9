import Verif.Props.Events
import Verif.Lcio.FloatLemmas
/-
More about loaded events: C39, C40 and C43.
-/
namespace Props
open Sio Spec Lcio

/-! ## C39 -/

/-- **C39**. What is loaded for `float` members that are `double` in memory does not change when it is stored and loaded again, whatever
the value is (with IEEE 754 conversions). -/
theorem C39_precision_stable (o : MCParticle) (f g : Nat → Nat) :
    (keptMCParticle ieee g (keptMCParticle ieee f o)).p = (keptMCParticle ieee f o).p ∧
    (keptMCParticle ieee g (keptMCParticle ieee f o)).mass = (keptMCParticle ieee f o).mass ∧
    (keptMCParticle ieee g (keptMCParticle ieee f o)).pEndpoint = (keptMCParticle ieee f o).pEndpoint ∧
    (keptMCParticle ieee g (keptMCParticle ieee f o)).endpoint = (keptMCParticle ieee f o).endpoint := by
  have h : ∀ x, viaFloat ieee (viaFloat ieee x) = viaFloat ieee x := viaFloat_twice
  refine ⟨?_, h _, ?_, ?_⟩
  · simp only [keptMCParticle, List.map_map]
    exact List.map_congr_left fun x _ => h x
  · simp only [keptMCParticle, ifBit]
    split
    · rw [List.map_map]
      exact List.map_congr_left fun x _ => h x
    · rfl
  · simp only [keptMCParticle, ifBit]
    split <;> rfl

/-- **C39**. A `double` that is exactly a `float` (the value of `y`, not a signalling NaN) is kept exactly. -/
theorem C39_float_exact (y : W32) (h : fNaN y = true → y.toNat / 4194304 % 2 = 1) : viaFloat ieee (ieeeWiden y) = ieeeWiden y := by
  unfold viaFloat
  show ieeeWiden (ieeeNarrow (ieeeWiden y)) = ieeeWiden y
  rw [narrow_widen y h]

/-- 1.5 and the smallest positive `float` are kept, 0.1 is rounded, 1e300 becomes infinite. -/
example : viaFloat ieee 0x3ff8000000000000 = 0x3ff8000000000000 ∧ viaFloat ieee 0x36a0000000000000 = 0x36a0000000000000 ∧
    viaFloat ieee 0x3fb999999999999a = 0x3fb99999a0000000 ∧ viaFloat ieee 0x7e37e43c8800759c = 0x7ff0000000000000 := by decide +kernel

/-! ## C40 -/

theorem count_map_inj (T : Nat → Nat) (S : List Nat) (hinj : ∀ a ∈ S, ∀ b ∈ S, T a = T b → a = b) (l : List Nat) (hl : ∀ x ∈ l, x ∈ S) (a : Nat)
    (ha : a ∈ S) : (l.map T).count (T a) = l.count a := by
  induction l with
  | nil => rfl
  | cons x l ih =>
    rw [List.map_cons, List.count_cons, List.count_cons, ih fun y hy => hl y (by simp [hy])]
    congr 1
    by_cases hx : x = a
    · subst hx; simp
    · have : T x ≠ T a := fun e => hx (hinj x (hl x (by simp)) a ha e)
      rw [beq_false_of_ne hx, beq_false_of_ne this]

theorem childrenOf_count (es : List Elem) (hn : (es.map (·.addr)).Nodup) (e : Elem) (he : e ∈ es) (x : Nat) :
    (childrenOf es x).count e.addr = (parentsOf e).count x := by
  have h0 : ∀ es : List Elem, e.addr ∉ es.map (·.addr) → (childrenOf es x).count e.addr = 0 := by
    intro es hes
    rw [List.count_eq_zero]
    intro hm
    obtain ⟨y, hy, hz⟩ := List.mem_flatMap.1 hm
    obtain ⟨_, _, hz⟩ := List.mem_map.1 hz
    exact hes (hz ▸ List.mem_map_of_mem (f := (·.addr)) hy)
  have h1 : ∀ y : Elem, (((parentsOf y).filter (· == x)).map fun _ => y.addr).count e.addr = if y.addr = e.addr then (parentsOf y).count x else 0 := by
    intro y
    rw [List.map_const', List.count_replicate]
    by_cases hy : y.addr = e.addr
    · rw [if_pos (by simpa using hy), if_pos hy, List.count, List.countP_eq_length_filter]
    · rw [if_neg (by simpa using hy), if_neg hy]
  induction es with
  | nil => cases he
  | cons y es ih =>
    rw [List.map_cons, List.nodup_cons] at hn
    have hc : childrenOf (y :: es) x = (((parentsOf y).filter (· == x)).map fun _ => y.addr) ++ childrenOf es x := rfl
    rw [hc, List.count_append, h1]
    rcases List.mem_cons.1 he with rfl | he
    · rw [if_pos rfl, h0 es hn.1, Nat.add_zero]
    · rw [if_neg fun e' => hn.1 (by rw [e']; exact List.mem_map_of_mem (f := (·.addr)) he), ih hn.2 he, Nat.zero_add]

/-- The particles of the loaded event come from those that were stored. -/
theorem mc_source {cs cols' : List (Str × Collection)} {h h' : EventHeader} {T : Nat → Nat} {R : Elem → Elem → Prop}
    (hl : LoadedEvent cs h h' cols' T (fun _ => R)) (p : Elem) (hp : p ∈ mcElems cols') : ∃ e ∈ mcElems cs, R e p := by
  obtain ⟨c', hc', hm, hpc⟩ := mem_mcElems.1 hp
  obtain ⟨i, hi⟩ := List.getElem?_of_mem hc'
  have hlt : i < cs.length := by rw [hl.heads.1]; exact (List.getElem?_eq_some_iff.1 hi).1
  have hci := List.getElem?_eq_getElem hlt
  have htype : c'.2.type = cs[i].2.type := by
    have := congrArg (fun l => l[i]?) hl.names
    simp only [List.getElem?_map, hi, hci, Option.map_some, Option.some.injEq, Prod.mk.injEq] at this
    exact this.2
  have h18 := (hl.heads.2 i _ _ hci hi).bits 18 (by decide)
  have hm' : isMC cs[i] = true := by
    unfold isMC at hm ⊢
    rw [← htype, ← h18]; exact hm
  have hsub : cs[i].2.flag.getLsbD 18 = false := by
    unfold isMC at hm'
    rw [Bool.and_eq_true, Bool.not_eq_true'] at hm'
    exact hm'.2
  obtain ⟨e, he, hR⟩ := (hl.objects.2 i _ _ hci hi hsub).mem_right hpc
  exact ⟨e, mem_mcElems.2 ⟨_, List.getElem_mem hlt, hm', he⟩, hR⟩

/-- **C40**. After loading an event, for any two MCParticles, `p` is listed as a daughter of `q` as many times as `q` is listed as a parent of
`p`. Partial: as in C39. -/
theorem C40_symmetric_partial (std : Std Pid) (ignoreNull : Bool) (only wanted : List Str) (h : EventHeader) (cols : List (Str × Collection))
    (hs : Storable std ignoreNull only wanted h cols) (buf : Str × Str) (opts : W32) (next : Nat) (hnext : 0 < next) :
    ∃ h' cols', storeLoadEvent std ignoreNull only wanted buf opts next h cols = .ok (h', cols') ∧
      ∀ p ∈ mcElems cols', ∀ q ∈ mcElems cols', (daughtersOf q).count p.addr = (parentsOf p).count q.addr := by
  obtain ⟨h', cols', T, e1, e2⟩ := C40_daughters_partial std ignoreNull only wanted h cols hs buf opts next hnext
  refine ⟨h', cols', e1, ?_⟩
  have hok : ∀ c ∈ wantedCols wanted (storedCols only cols), CollectionOk std (kindD c.2) c.2 :=
    fun c hc => hs.event.stored c (List.mem_filter.1 hc).1
  have hpar := hs.parents
  have hnd : (allTagged (wantedCols wanted (storedCols only cols))).Nodup := by
    refine hs.event.addresses.sublist ?_
    unfold allTagged wantedCols
    generalize storedCols only cols = cs
    induction cs with
    | nil => exact List.Sublist.refl _
    | cons c cs ih =>
      rw [List.filter_cons]
      split
      · rw [List.flatMap_cons, List.flatMap_cons]
        exact List.Sublist.append (List.Sublist.refl _) ih
      · rw [List.flatMap_cons]
        exact ih.trans (List.sublist_append_right _ _)
  generalize wantedCols wanted (storedCols only cols) = W at *
  have hsub := mcAddrs_tagged hok
  have hmem : ∀ e ∈ mcElems W, e.addr ∈ mcAddrs W := fun e he => by rw [mcAddrs_eq]; exact List.mem_map_of_mem he
  intro p hp q hq
  obtain ⟨e, he, hRe⟩ := mc_source e2 p hp
  obtain ⟨f, hf, hRf⟩ := mc_source e2 q hq
  have hobj : ∀ e ∈ mcElems W, ∃ o, e.obj = some (.mcParticle o) := by
    intro e he
    obtain ⟨c, hc, hm, hec⟩ := mem_mcElems.1 he
    unfold isMC at hm
    rw [Bool.and_eq_true, Bool.not_eq_true'] at hm
    have hk := (kind_mc c.2.type _ (hok c hc).kind).1 hm.1
    obtain ⟨o, ho, ho2⟩ := (hok c hc).objects hm.2 e hec
    rw [hk] at ho2
    cases o <;> simp only [ObjOk] at ho2
    exact ⟨_, ho⟩
  obtain ⟨oe, hoe⟩ := hobj e he
  obtain ⟨of, hof⟩ := hobj f hf
  obtain ⟨oe', rfl, hpe, -⟩ := hRe oe hoe
  obtain ⟨of', rfl, -, hdf⟩ := hRf of hof
  show of'.daughters.count (T e.addr) = oe'.parents.count (T f.addr)
  have hpar_e : parentsOf e = oe.parents := by unfold parentsOf; rw [hoe]
  rw [hdf, hpe, ← hpar_e]
  have hinj : ∀ a ∈ mcAddrs W, ∀ b ∈ mcAddrs W, T a = T b → a = b := fun a ha b hb => e2.pointers.distinct a (hsub.subset ha) b (hsub.subset hb)
  rw [count_map_inj T (mcAddrs W) hinj _ _ _ (hmem e he), count_map_inj T (mcAddrs W) hinj _ _ _ (hmem f hf)]
  · exact childrenOf_count _ (mcAddrs_eq W ▸ hnd.sublist hsub) e he _
  · intro x hx
    obtain ⟨c, hc, hm, hec⟩ := mem_mcElems.1 he
    obtain ⟨pre, post, hW⟩ := List.append_of_mem hc
    have := hpar pre c post hW hm e hec x hx
    rw [hW]
    unfold mcAddrs at this ⊢
    simp only [List.flatMap_append, List.flatMap_cons, List.flatMap_nil, List.append_nil, List.mem_append] at this ⊢
    rcases this with h | h
    · exact Or.inl h
    · exact Or.inr (Or.inl h)
  · intro x hx
    obtain ⟨y, hy, hz⟩ := List.mem_flatMap.1 hx
    obtain ⟨_, _, rfl⟩ := List.mem_map.1 hz
    exact hmem y hy

/-! ## C43 -/

/-- `std::sort` with a comparison that is a strict weak ordering (which `>` is if there are no NaNs): the elements in descending order. -/
def SortLaw (std : Std Pid) : Prop := ∀ l, (∀ p ∈ l, fNaN p.likelihood = false) →
  (std.sort l).Perm l ∧ (std.sort l).Pairwise fun p q => fKey q.likelihood ≤ fKey p.likelihood

theorem pidInsert_perm (p : Pid) (l : List Pid) : (pidInsert p l).Perm (p :: l) := by
  induction l with
  | nil => exact List.Perm.refl _
  | cons q l ih =>
    unfold pidInsert
    split
    · exact List.Perm.refl _
    · exact (List.Perm.cons q ih).trans (List.Perm.swap p q l)

theorem pidInsert_sorted (p : Pid) (l : List Pid) (hp : fNaN p.likelihood = false) (hl : ∀ q ∈ l, fNaN q.likelihood = false)
    (h : l.Pairwise fun p q => fKey q.likelihood ≤ fKey p.likelihood) :
    (pidInsert p l).Pairwise fun p q => fKey q.likelihood ≤ fKey p.likelihood := by
  induction l with
  | nil => exact List.pairwise_singleton _ _
  | cons q l ih =>
    unfold pidInsert
    have hq := hl q (by simp)
    rw [List.pairwise_cons] at h
    have hgt : fltGt p.likelihood q.likelihood = decide (fKey q.likelihood < fKey p.likelihood) := by unfold fltGt; rw [hp, hq]; rfl
    rw [hgt]
    split
    · rename_i hlt
      rw [decide_eq_true_eq] at hlt
      rw [List.pairwise_cons, List.pairwise_cons]
      refine ⟨?_, h⟩
      intro x hx
      rcases List.mem_cons.1 hx with rfl | hx
      · omega
      · have := h.1 x hx; omega
    · rename_i hlt
      rw [decide_eq_true_eq] at hlt
      rw [List.pairwise_cons]
      refine ⟨?_, ih (fun x hx => hl x (by simp [hx])) h.2⟩
      intro x hx
      rcases List.mem_cons.1 ((pidInsert_perm p l).mem_iff.1 hx) with rfl | hx
      · omega
      · exact h.1 x hx

/-- The standard library of the examples sorts. -/
theorem ieee_sort : SortLaw ieee := by
  intro l
  show _ → (pidSort l).Perm l ∧ (pidSort l).Pairwise _
  unfold pidSort
  have key : ∀ (l acc : List Pid), (∀ p ∈ l, fNaN p.likelihood = false) → (∀ p ∈ acc, fNaN p.likelihood = false) →
      acc.Pairwise (fun p q => fKey q.likelihood ≤ fKey p.likelihood) →
      (l.foldl (fun acc p => pidInsert p acc) acc).Perm (acc ++ l) ∧
      (l.foldl (fun acc p => pidInsert p acc) acc).Pairwise fun p q => fKey q.likelihood ≤ fKey p.likelihood := by
    intro l
    induction l with
    | nil => intro acc _ _ h; rw [List.append_nil]; exact ⟨List.Perm.refl _, h⟩
    | cons p l ih =>
      intro acc hl ha h
      obtain ⟨h1, h2⟩ := ih (pidInsert p acc) (fun x hx => hl x (by simp [hx]))
        (fun x hx => by
          rcases List.mem_cons.1 ((pidInsert_perm p acc).mem_iff.1 hx) with rfl | hx
          · exact hl _ (by simp)
          · exact ha x hx)
        (pidInsert_sorted p acc (hl p (by simp)) ha h)
      refine ⟨h1.trans ?_, h2⟩
      exact ((pidInsert_perm p acc).append_right l).trans List.perm_middle.symm
  intro hl
  have := key l [] hl (by simp) List.Pairwise.nil
  rwa [List.nil_append] at this

theorem addedInTurn_sorted (std : Std Pid) (hstd : SortLaw std) (l : List Pid) (h : ∀ p ∈ l, fNaN p.likelihood = false) :
    (addedInTurn std l).Perm l ∧ (addedInTurn std l).Pairwise fun p q => fKey q.likelihood ≤ fKey p.likelihood := by
  unfold addedInTurn
  have key : ∀ (l acc : List Pid), (∀ p ∈ l, fNaN p.likelihood = false) → (∀ p ∈ acc, fNaN p.likelihood = false) →
      acc.Pairwise (fun p q => fKey q.likelihood ≤ fKey p.likelihood) →
      (l.foldl (fun l p => std.sort (l ++ [p])) acc).Perm (acc ++ l) ∧
      (l.foldl (fun l p => std.sort (l ++ [p])) acc).Pairwise fun p q => fKey q.likelihood ≤ fKey p.likelihood := by
    intro l
    induction l with
    | nil => intro acc _ _ h; rw [List.append_nil]; exact ⟨List.Perm.refl _, h⟩
    | cons p l ih =>
      intro acc hl ha h
      have hn : ∀ x ∈ acc ++ [p], fNaN x.likelihood = false := by
        intro x hx
        rcases List.mem_append.1 hx with hx | hx
        · exact ha x hx
        · rw [List.mem_singleton] at hx; subst hx; exact hl _ (by simp)
      obtain ⟨s1, s2⟩ := hstd (acc ++ [p]) hn
      obtain ⟨h1, h2⟩ := ih (std.sort (acc ++ [p])) (fun x hx => hl x (by simp [hx])) (fun x hx => hn x (s1.mem_iff.1 hx)) s2
      refine ⟨h1.trans ?_, h2⟩
      have := s1.append_right l
      rwa [List.append_assoc] at this
  have := key l [] h (by simp) List.Pairwise.nil
  rwa [List.nil_append] at this

/-- **C43**. The particle ids of a cluster and of a reconstructed particle are all loaded, in descending order of likelihood. If they were in
strictly descending order they are in the same order. (`ids` are the places of the particle ids; likelihoods are numbers.) -/
theorem C43_pid_order (std : Std Pid) (hstd : SortLaw std) (flag : W32) (f : Nat → Nat) (o : Cluster) (r : RecoParticle) (ids : List Nat)
    (ho : ∀ p ∈ o.pids, fNaN p.likelihood = false) (hr : ∀ p ∈ r.pids, fNaN p.likelihood = false) :
    ((keptCluster std flag f o).pids.Perm (o.pids.map fun p => { p with addr := 0 }) ∧
      (keptCluster std flag f o).pids.Pairwise (fun p q => fKey q.likelihood ≤ fKey p.likelihood) ∧
      (o.pids.Pairwise (fun p q => fKey q.likelihood < fKey p.likelihood) → (keptCluster std flag f o).pids = o.pids.map fun p => { p with addr := 0 })) ∧
    ((keptRecoParticle std f ids r).pids.Perm (List.zipWith (fun p id => { p with addr := id }) r.pids ids) ∧
      (keptRecoParticle std f ids r).pids.Pairwise (fun p q => fKey q.likelihood ≤ fKey p.likelihood) ∧
      (r.pids.Pairwise (fun p q => fKey q.likelihood < fKey p.likelihood) →
        (keptRecoParticle std f ids r).pids = List.zipWith (fun p id => { p with addr := id }) r.pids ids)) := by
  have key : ∀ l : List Pid, (∀ p ∈ l, fNaN p.likelihood = false) → (addedInTurn std l).Perm l ∧
      (addedInTurn std l).Pairwise (fun p q => fKey q.likelihood ≤ fKey p.likelihood) ∧
      (l.Pairwise (fun p q => fKey q.likelihood < fKey p.likelihood) → addedInTurn std l = l) := by
    intro l hl
    obtain ⟨h1, h2⟩ := addedInTurn_sorted std hstd l hl
    refine ⟨h1, h2, fun hstrict => ?_⟩
    refine h1.eq_of_pairwise (le := fun p q => fKey q.likelihood ≤ fKey p.likelihood) ?_ h2 (hstrict.imp fun h => by omega)
    intro a b ha hb hab hba
    have ha' := h1.mem_iff.1 ha
    clear ha h1 h2 hl
    induction l with
    | nil => cases hb
    | cons x l ih =>
      rw [List.pairwise_cons] at hstrict
      rcases List.mem_cons.1 ha' with rfl | ha'' <;> rcases List.mem_cons.1 hb with rfl | hb'
      · rfl
      · have := hstrict.1 b hb'; omega
      · have := hstrict.1 a ha''; omega
      · exact ih hstrict.2 hb' ha''
  refine ⟨?_, ?_⟩
  · obtain ⟨h1, h2, h3⟩ := key (o.pids.map fun p => { p with addr := 0 }) (by
      intro p hp
      obtain ⟨q, hq, rfl⟩ := List.mem_map.1 hp
      exact ho q hq)
    refine ⟨h1, h2, fun h => h3 ?_⟩
    rw [List.pairwise_map]
    exact h
  · obtain ⟨h1, h2, h3⟩ := key (List.zipWith (fun p id => { p with addr := id }) r.pids ids) (by
      intro p hp
      rw [List.mem_iff_getElem] at hp
      obtain ⟨i, hi, rfl⟩ := hp
      rw [List.getElem_zipWith]
      simp only [List.length_zipWith] at hi
      exact hr (r.pids[i]'(by omega)) (List.getElem_mem _))
    refine ⟨h1, h2, fun h => h3 ?_⟩
    rw [List.pairwise_iff_getElem] at h ⊢
    intro i j hi hj hij
    rw [List.getElem_zipWith, List.getElem_zipWith]
    simp only [List.length_zipWith] at hi hj
    exact h i j (by omega) (by omega) hij

/-! ## C62 -/

/-- **C62**. The collections that are loaded are those stored, in order, with names, types, flags, parameters and numbers of elements
as described by `KeptHead`. -/
theorem C62_collection_heads (std : Std Pid) (ignoreNull : Bool) (only wanted : List Str) (h : EventHeader) (cols : List (Str × Collection))
    (hs : Storable std ignoreNull only wanted h cols) (buf : Str × Str) (opts : W32) (next : Nat) (hnext : 0 < next) :
    ∃ h' cols', storeLoadEvent std ignoreNull only wanted buf opts next h cols = .ok (h', cols') ∧
      All2 (fun c c' => c'.1 = c.1 ∧ c'.2.type = c.2.type ∧ KeptHead c.2 c'.2 ∧ c'.2.elems.length = c.2.elems.length)
        (wantedCols wanted (storedCols only cols)) cols' := by
  obtain ⟨h', cols', T, e1, e2⟩ := C40_daughters_partial std ignoreNull only wanted h cols hs buf opts next hnext
  refine ⟨h', cols', e1, e2.heads.1, ?_⟩
  intro i c c' hc hc'
  have hn := congrArg (fun l => l[i]?) e2.names
  simp only [List.getElem?_map, hc, hc', Option.map_some, Option.some.injEq, Prod.mk.injEq] at hn
  refine ⟨hn.1, hn.2, e2.heads.2 i c c' hc hc', ?_⟩
  cases hb : c.2.flag.getLsbD 18 with
  | true => exact (e2.subsets.2 i c c' hc hc' hb).1.symm
  | false => exact (e2.objects.2 i c c' hc hc' hb).1.symm

/-- An object of each class. -/
def oneOfEach : List Obj :=
  [.mcParticle {}, .simCalHit {}, .rawCalHit {}, .calHit {}, .simTrackerHit {}, .tpcHit {}, .trackerRawData {}, .trackerData {}, .trackerPulse {}, .trackerHit {}, .trackerHitPlane {}, .trackerHitZCylinder {},
   .track {}, .cluster {}, .recoParticle {}, .relation {}, .vertex {}, .strVec [], .floatVec [], .intVec [], .generic {}]

/-- **C62**. Every object can be in a collection whose type is the name of its class: that is what the handler for this class is used for; and
there are no other types. -/
theorem C62_types : (∀ o : Obj, kindOf (classOf o).1 = some (classOf o).2) ∧ ∀ type k, kindOf type = some k → ∃ o : Obj, classOf o = (type, k) := by
  constructor
  · intro o; cases o <;> rfl
  · intro type k h
    unfold kindOf at h
    obtain ⟨x, h1, h2⟩ := Option.map_eq_some_iff.1 h
    have h3 := List.mem_of_find?_eq_some h1
    have h4 := List.find?_some h1
    simp only [beq_iff_eq] at h4
    subst h4 h2
    have h5 : ∀ x ∈ handlers, x ∈ oneOfEach.map classOf := by decide
    obtain ⟨o, -, h6⟩ := List.mem_map.1 (h5 x h3)
    exact ⟨o, h6⟩

end Props
