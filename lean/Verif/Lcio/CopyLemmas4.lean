import Verif.Lcio.CopyLemmas3
/-
An event that was loaded can be stored, and what is loaded then is the same.
-/
namespace Lcio
open Sio Spec

theorem allTagged_sub (wanted : List Str) (cs : List (Str × Collection)) : (allTagged (wantedCols wanted cs)).Sublist (allTagged cs) := by
  unfold allTagged wantedCols
  induction cs with
  | nil => exact List.Sublist.refl _
  | cons c cs ih =>
    rw [List.filter_cons]
    split
    · rw [List.flatMap_cons, List.flatMap_cons]
      exact List.Sublist.append (List.Sublist.refl _) ih
    · rw [List.flatMap_cons]
      exact ih.trans (List.sublist_append_right _ _)

/-! ### The header -/

/-- How a collection is announced in the event header. -/
def announced (c : Str × ColHead) : List Item := wStr c.1 ++ wStr (if c.2.isSubset then c.2.type ++ subsetPostfix else c.2.type)

theorem header_items (only : List Str) (e : EventHeader) : e.write only =
    w32 e.run ++ w32 e.evt ++ w64 e.time ++ wStr e.det ++ w32 (BitVec.ofNat 32 (stored only e).length) ++ (stored only e).flatMap announced ++ e.params.write := by
  have hf : stored only e = e.cols.filter fun c => !notSelected only c.1 && !c.2.isTransient := by
    unfold stored
    refine List.filter_congr fun c _ => ?_
    unfold notSelected ColHead.isTransient
    cases only.isEmpty <;> cases only.contains c.1 <;> cases c.2.flag.getLsbD 16 <;> rfl
  unfold EventHeader.write
  simp only [hf, List.countP_eq_length_filter]
  congr 2
  generalize e.cols = cs
  induction cs with
  | nil => rfl
  | cons c cs ih =>
    rw [List.flatMap_cons, ih, List.filter_cons]
    cases h1 : c.2.isTransient <;> cases h2 : notSelected only c.1 <;> simp [announced]

theorem flatMap_filter_len {α : Type} (p : α → Bool) (f : α → List Item) (l : List α) :
    (bytesOf ((l.filter p).flatMap f)).length ≤ (bytesOf (l.flatMap f)).length := by
  induction l with
  | nil => exact Nat.le_refl _
  | cons a l ih =>
    have happ : ∀ is js : List Item, (bytesOf (is ++ js)).length = (bytesOf is).length + (bytesOf js).length := by
      intro is js; rw [bytesOf_len, bytesOf_len, bytesOf_len, List.map_append, List.sum_append]
    rw [List.filter_cons]
    split
    · rw [List.flatMap_cons, List.flatMap_cons, happ, happ]; omega
    · rw [List.flatMap_cons, happ]; omega

/-- The header of the copy is not longer. -/
theorem header_writable (only : List Str) (e e1 : EventHeader) (p : Str × ColHead → Bool)
    (h : Writable headerRecordName [EventHeader.block only e]) (hdet : e1.det = e.det) (hi : e1.params.ints = e.params.ints)
    (hf : e1.params.floats = e.params.floats) (hs : e1.params.strs = e.params.strs)
    (hcols : (stored [] e1).flatMap announced = ((stored only e).filter p).flatMap announced) :
    Writable headerRecordName [EventHeader.block [] e1] ∧ dataLen [EventHeader.block [] e1] ≤ dataLen [EventHeader.block only e] := by
  have happ : ∀ is js : List Item, (bytesOf (is ++ js)).length = (bytesOf is).length + (bytesOf js).length := by
    intro is js; rw [bytesOf_len, bytesOf_len, bytesOf_len, List.map_append, List.sum_append]
  have h32 : ∀ v : W32, (bytesOf (w32 v)).length = 4 := fun v => by
    rw [bytesOf_len]
    show (wireArray 4 [v.toNat]).length + 0 = 4
    rw [wireArray_len]; simp [padding]
  have h64 : ∀ v : W64, (bytesOf (w64 v)).length = 8 := fun v => by
    rw [bytesOf_len]
    show (wireArray 8 [v.toNat]).length + 0 = 8
    rw [wireArray_len]; simp [padding]
  have hpar : e1.params.write = e.params.write := by unfold Params.write; rw [hi, hf, hs]
  have hlen : (bytesOf (e1.write [])).length ≤ (bytesOf (e.write only)).length := by
    rw [header_items, header_items, hcols, hpar, hdet]
    have := flatMap_filter_len p announced (stored only e)
    simp only [happ, h32, h64]
    omega
  have hfit : ∀ i ∈ e1.write [], fits i := by
    have hb := (h.blocks _ (List.mem_singleton.2 rfl)).2.1
    change ∀ i ∈ e.write only, fits i at hb
    rw [header_items] at hb
    rw [header_items, hcols, hpar, hdet]
    have f32 : ∀ (v : W32) i, i ∈ w32 v → fits i := by
      intro v i hi
      unfold w32 at hi
      rw [List.mem_singleton] at hi
      subst hi
      show 4 * 1 + 3 < 2 ^ 32
      decide
    have f64 : ∀ (v : W64) i, i ∈ w64 v → fits i := by
      intro v i hi
      unfold w64 at hi
      rw [List.mem_singleton] at hi
      subst hi
      show 8 * 1 + 3 < 2 ^ 32
      decide
    intro i hi
    simp only [List.mem_append] at hi hb
    rcases hi with (((((hi | hi) | hi) | hi) | hi) | hi) | hi
    · exact f32 _ i hi
    · exact f32 _ i hi
    · exact f64 _ i hi
    · exact hb i (Or.inl (Or.inl (Or.inl (Or.inr hi))))
    · exact f32 _ i hi
    · refine hb i (Or.inl (Or.inr ?_))
      obtain ⟨c, hc, hic⟩ := List.mem_flatMap.1 hi
      exact List.mem_flatMap.2 ⟨c, (List.mem_filter.1 hc).1, hic⟩
    · exact hb i (Or.inr hi)
  have hbl : blockLen (EventHeader.block [] e1) ≤ blockLen (EventHeader.block only e) := by
    unfold blockLen EventHeader.block blockHeaderLen
    simp only
    omega
  have hd : dataLen [EventHeader.block [] e1] ≤ dataLen [EventHeader.block only e] := by
    unfold dataLen blocksItems
    simp only [List.flatMap_cons, List.flatMap_nil, List.append_nil]
    unfold blockItems
    rw [happ, happ]
    have : ∀ b : WBlock, (bytesOf (hdrItems b)).length = 16 + itemLen (chars b.name) := by
      intro b; rw [bytesOf_len]; unfold hdrItems; simp only [List.map_cons, List.map_nil, List.sum_cons, List.sum_nil]
      have : ∀ n, itemLen (word n) = 4 := fun n => by show (wireArray 4 [n]).length = 4; rw [wireArray_len]; simp [padding]
      simp only [this]; omega
    rw [this, this]
    unfold EventHeader.block
    simp only
    omega
  refine ⟨⟨h.nameOk, ?_, ?_⟩, hd⟩
  · intro b hb
    rw [List.mem_singleton] at hb
    subst hb
    obtain ⟨a1, a2, a3⟩ := h.blocks _ (List.mem_singleton.2 rfl)
    exact ⟨a1, hfit, Nat.lt_of_le_of_lt hbl a3⟩
  · have := h.size
    omega

/-! ### Storing again -/

theorem stored_again (std : Std Pid) (hl : Laws std) (ignoreNull : Bool) (only wanted : List Str) (h h1 : EventHeader) (cols L : List (Str × Collection))
    (T : Nat → Nat) (hs : Storable std ignoreNull only wanted h cols) (hc : Copyable (wantedCols wanted (storedCols only cols)))
    (hh : h1.run = h.run ∧ h1.evt = h.evt ∧ h1.time = h.time ∧ h1.det = h.det ∧
        h1.params.ints = h.params.ints ∧ h1.params.floats = h.params.floats ∧ h1.params.strs = h.params.strs)
    (hT : Pointers (wantedCols wanted (storedCols only cols)) T) (hL : All2 (LoadedAs std T) (wantedCols wanted (storedCols only cols)) L)
    (D : Nat → List Nat) : Storable std ignoreNull [] [] h1 (resolved (withDaughters D L)) ∧
      dataLen [EventHeader.block [] { h1 with cols := colHeads (resolved (withDaughters D L)) }] ≤ dataLen [EventHeader.block only { h with cols := colHeads cols }] ∧
      dataLen (eventBlocks std [] (resolved (withDaughters D L))) ≤ dataLen (eventBlocks std only cols) := by
  have hok : ∀ c ∈ wantedCols wanted (storedCols only cols), CollectionOk std (kindD c.2) c.2 :=
    fun c hc => hs.event.stored c (List.mem_filter.1 hc).1
  have hF : ∀ c ∈ wantedCols wanted (storedCols only cols), First std c.2 := fun c hcW =>
    ⟨hok c hcW, fun h18 => (hc.vertices c hcW h18).1, hc.numbers c hcW, hc.typeNames c hcW⟩
  have hnd := hs.event.addresses.sublist (allTagged_sub wanted _)
  have hA : All2 (AgainAs std T) (wantedCols wanted (storedCols only cols)) (resolved (withDaughters D L)) := again_all hL hF hT hnd hc.vertices
  have h16 : ∀ c ∈ wantedCols wanted (storedCols only cols), c.2.flag.getLsbD 16 = false := by
    intro c hcW
    have := (List.mem_filter.1 (List.mem_filter.1 hcW).1).2
    rw [Bool.and_eq_true, Bool.not_eq_true'] at this
    exact this.1
  have hsub : (wantedCols wanted (storedCols only cols)).Sublist cols := List.filter_sublist.trans List.filter_sublist
  have hWst : ((wantedCols wanted (storedCols only cols)).map fun c => (c.1, (⟨c.2.type, c.2.flag⟩ : ColHead))) =
      (stored only { h with cols := colHeads cols }).filter fun c => wanted.isEmpty || wanted.contains c.1 := by
    unfold stored wantedCols storedCols colHeads
    simp only [List.filter_map, List.filter_filter]
    rfl
  have hblocks : (eventBlocks std only cols).filter (fun b => wanted.isEmpty || wanted.contains b.name) =
      (wantedCols wanted (storedCols only cols)).map (colBlock std) := by
    rw [eventBlocks_eq]
    unfold wantedCols
    rw [List.filter_map]
    rfl
  generalize hR : resolved (withDaughters D L) = R at *
  have hR16 : ∀ r ∈ R, r.2.flag.getLsbD 16 = false := by
    intro r hr
    obtain ⟨w, hw, hwr⟩ := hA.mem_right hr
    rw [hwr.2.bits (hF w hw) 16 (by decide)]
    exact h16 w hw
  have hst : storedCols [] R = R := by
    unfold storedCols
    refine List.filter_eq_self.2 fun r hr => ?_
    rw [hR16 r hr]; rfl
  have hwt : wantedCols [] R = R := List.filter_eq_self.2 fun r _ => rfl
  have hnames : R.map (·.1) = (wantedCols wanted (storedCols only cols)).map (·.1) := hA.map_eq _ _ fun a _ b _ hab => hab.1
  have htag := again_tagged hl hA hF
  have hst1 : stored [] { h1 with cols := colHeads R } = colHeads R := by
    unfold stored
    refine List.filter_eq_self.2 fun r hr => ?_
    obtain ⟨r', hr', rfl⟩ := List.mem_map.1 hr
    simp only [hR16 r' hr']; rfl
  have hhead : Writable headerRecordName [EventHeader.block [] { h1 with cols := colHeads R }] ∧
      dataLen [EventHeader.block [] { h1 with cols := colHeads R }] ≤ dataLen [EventHeader.block only { h with cols := colHeads cols }] := by
    refine header_writable only { h with cols := colHeads cols } { h1 with cols := colHeads R } (fun c => wanted.isEmpty || wanted.contains c.1) hs.headerSize
      hh.2.2.2.1 hh.2.2.2.2.1 hh.2.2.2.2.2.1 hh.2.2.2.2.2.2 ?_
    rw [hst1, ← hWst]
    unfold colHeads
    rw [List.flatMap_map, List.flatMap_map]
    refine hA.flatMap_eq _ _ fun w hw r _ hwr => ?_
    unfold announced ColHead.isSubset
    simp only [hwr.1, hwr.2.type, hwr.2.bits (hF w hw) 18 (by decide)]
  have hbody : dataLen (eventBlocks std [] R) ≤ dataLen (eventBlocks std only cols) := by
    rw [eventBlocks_eq, hst, again_dataLen hl hA hF, ← hblocks]
    exact dataLen_filter (fun b => wanted.isEmpty || wanted.contains b.name) (eventBlocks std only cols)
  refine ⟨⟨⟨?_, ?_, ?_, ?_, ?_, ?_⟩, ?_, ⟨?_, ?_, ?_, ?_, ?_⟩, ?_, ?_⟩, hhead.2, hbody⟩
  · show h1.det.length < 2 ^ 31
    rw [hh.2.2.2.1]; exact hs.header.det
  · show (colHeads R).length < 2 ^ 31
    have := hs.header.count
    simp only [colHeads, List.length_map] at this ⊢
    rw [← hA.1]
    exact Nat.lt_of_le_of_lt hsub.length_le this
  · have := hs.header.ordered
    unfold Ordered colHeads at this ⊢
    rw [List.pairwise_map] at this ⊢
    have h2 : (R.map (·.1)).Pairwise fun a b => strLt a b = true := by
      rw [hnames, List.pairwise_map]; exact this.sublist hsub
    rw [List.pairwise_map] at h2
    exact h2
  · intro c hcR
    obtain ⟨r, hr, rfl⟩ := List.mem_map.1 hcR
    obtain ⟨w, hw, hwr⟩ := hA.mem_right hr
    have := hs.header.names (w.1, ⟨w.2.type, w.2.flag⟩) (List.mem_map.2 ⟨w, hsub.subset hw, rfl⟩)
    simp only [hwr.1]; exact this
  · intro c hcR
    obtain ⟨r, hr, rfl⟩ := List.mem_map.1 hcR
    obtain ⟨w, hw, hwr⟩ := hA.mem_right hr
    have := hs.header.types (w.1, ⟨w.2.type, w.2.flag⟩) (List.mem_map.2 ⟨w, hsub.subset hw, rfl⟩)
    simp only [hwr.2.type]; exact this
  · have := hs.header.params
    exact ⟨by show MapOk _ h1.params.ints; rw [hh.2.2.2.2.1]; exact this.ints, by show MapOk _ h1.params.floats; rw [hh.2.2.2.2.2.1]; exact this.floats,
      by show MapOk _ h1.params.strs; rw [hh.2.2.2.2.2.2]; exact this.strs⟩
  · exact hhead.1
  · rw [hnames]
    exact (storedCols_names only cols hs.event.names).sublist (List.filter_sublist.map _)
  · rw [hst]
    intro r hr
    obtain ⟨w, hw, hwr⟩ := hA.mem_right hr
    exact hwr.2.ok hl (hF w hw)
  · rw [eventBlocks_eq, hst]
    refine ⟨hs.event.size.nameOk, ?_, ?_⟩
    · intro b hb
      obtain ⟨r, hr, rfl⟩ := List.mem_map.1 hb
      obtain ⟨w, hw, hwr⟩ := hA.mem_right hr
      refine (again_block hl hwr (hF w hw)).2 (hs.event.size.blocks _ ?_)
      have : colBlock std w ∈ (eventBlocks std only cols).filter (fun b => wanted.isEmpty || wanted.contains b.name) := by
        rw [hblocks]; exact List.mem_map_of_mem hw
      exact (List.mem_filter.1 this).1
    · rw [eventBlocks_eq, hst] at hbody
      have := hs.event.size.size
      omega
  · rw [hst]
    exact htag.symm.nodup (nodup_map_of_inj _ hnd hT.distinct)
  · rw [hst]
    intro h0
    obtain ⟨a, ha, ha0⟩ := List.mem_map.1 (htag.subset h0)
    exact hT.nonNull a ha ha0
  · rw [hst, hwt]
    exact again_parents hA hF hs.parents
  · rw [hst, hwt]
    rcases hs.subsets with hi | hi
    · exact Or.inl hi
    · exact Or.inr (again_subsets hl hA hF hi)

theorem storedCols_resolved {std : Std Pid} {T : Nat → Nat} {W L : List (Str × Collection)} (_hl : Laws std) (hL : All2 (LoadedAs std T) W L)
    (hF : ∀ c ∈ W, First std c.2) (hT : Pointers W T) (hnd : (allTagged W).Nodup) (hv : VertexSubsets W) (D : Nat → List Nat)
    (h16 : ∀ c ∈ W, c.2.flag.getLsbD 16 = false) : storedCols [] (resolved (withDaughters D L)) = resolved (withDaughters D L) := by
  have hA : All2 (AgainAs std T) W (resolved (withDaughters D L)) := again_all hL hF hT hnd hv
  unfold storedCols
  refine List.filter_eq_self.2 fun r hr => ?_
  obtain ⟨w, hw, hwr⟩ := hA.mem_right hr
  rw [hwr.2.bits (hF w hw) 16 (by decide), h16 w hw]; rfl

theorem kids_withD (D : Nat → List Nat) (L : List (Str × Collection)) (x : Nat) : kids (resolved (withDaughters D L)) x = kids L x := by
  unfold resolved
  generalize objectAt (withDaughters D L) = f
  unfold kids withDaughters
  rw [List.map_map, List.flatMap_map]
  congr 1
  funext c
  simp only [Function.comp]
  cases hb : c.2.flag.getLsbD 18
  · simp only [Bool.false_eq_true, if_false]
    have : isMC (c.1, { c.2 with elems := c.2.elems.map (Elem.withD D) }) = isMC c := rfl
    rw [this]
    split
    · unfold childrenOf
      rw [List.flatMap_map]
      congr 1
      funext e
      have hp : parentsOf (Elem.withD D e) = parentsOf e := by
        obtain ⟨a, o⟩ := e
        cases o with
        | none => rfl
        | some o => cases o <;> rfl
      rw [hp, withD_addr]
    · rfl
  · simp only [if_true]
    have h1 : isMC c = false := by unfold isMC; rw [hb]; simp
    have h2 : ∀ es, isMC (c.1, { c.2 with elems := es }) = false := fun es => h1
    rw [h1, h2]
    rfl

theorem tagged_resolved (cols : List (Str × Collection)) : allTagged (resolved cols) = allTagged cols := by
  unfold resolved
  generalize objectAt cols = f
  unfold allTagged
  rw [List.flatMap_map]
  congr 1
  funext c
  cases hb : c.2.flag.getLsbD 18
  · simp only [Bool.false_eq_true, if_false]
  · simp only [if_true]
    unfold tagged
    rw [hb]
    rfl

theorem same_again (std : Std Pid) (hl : Laws std) (W L L2 : List (Str × Collection)) (T T2 : Nat → Nat) (hF : ∀ c ∈ W, First std c.2)
    (hL : All2 (LoadedAs std T) W L) (hT : Pointers W T) (hnd : (allTagged W).Nodup) (hv : VertexSubsets W) (hp : ParentsEarlier W)
    (hok2 : ∀ c ∈ resolved (withDaughters (kids L) L), CollectionOk std (kindD c.2) c.2)
    (h0 : 0 ∉ allTagged (resolved (withDaughters (kids L) L)))
    (hT2 : Pointers (resolved (withDaughters (kids L) L)) T2) (hL2 : All2 (LoadedAs std T2) (resolved (withDaughters (kids L) L)) L2) :
    All2 (SameCol T2) (withDaughters (kids L) L) (withDaughters (kids L2) L2) := by
  have hA : All2 (AgainAs std T) W (resolved (withDaughters (kids L) L)) := again_all hL hF hT hnd hv
  have hp2 := again_parents hA hF hp
  have hmcp : ∀ e ∈ mcElems (resolved (withDaughters (kids L) L)), ∀ p ∈ parentsOf e, p ∈ allTagged (resolved (withDaughters (kids L) L)) := by
    generalize resolved (withDaughters (kids L) L) = R at *
    intro e he p hp
    obtain ⟨c, hc, hm, hec⟩ := mem_mcElems.1 he
    obtain ⟨pre, post, hW⟩ := List.append_of_mem hc
    have := hp2 pre c post hW hm e hec p hp
    apply (mcAddrs_tagged hok2).subset
    rw [hW]
    unfold mcAddrs at this ⊢
    simp only [List.flatMap_append, List.flatMap_cons, List.flatMap_nil, List.append_nil, List.mem_append] at this ⊢
    rcases this with h | h
    · exact Or.inl h
    · exact Or.inr (Or.inl h)
  have hkids : ∀ x ∈ allTagged (resolved (withDaughters (kids L) L)), kids L2 (T2 x) = (kids L x).map T2 := by
    intro x hx
    rw [kids_loaded _ hT2.distinct hL2 hok2 hmcp x hx]
    congr 1
    rw [← kids_withD (kids L) L x]
    generalize resolved (withDaughters (kids L) L) = R
    unfold childrenOf mcElems kids
    rw [List.flatMap_assoc]
    congr 1
    funext c
    split <;> rfl
  have hL2' : All2 (fun c1 l2 => ∃ r, r ∈ resolved (withDaughters (kids L) L) ∧ LoadedAs std T2 r l2 ∧
      r = if c1.2.flag.getLsbD 18 then (c1.1, { c1.2 with elems := c1.2.elems.map fun e => ⟨e.addr, objectAt (withDaughters (kids L) L) e.addr⟩ }) else c1)
      (withDaughters (kids L) L) L2 := by
    refine (All2.mapLeft _ hL2).mono fun a ha b _ hab => ⟨_, List.mem_map_of_mem ha, hab, rfl⟩
  conv => arg 3; unfold withDaughters
  refine hL2'.mapRight _ fun c1 hc1 l2 hl2 hcl => ?_
  obtain ⟨r, hr, hrl, hre⟩ := hcl
  obtain ⟨w, hw, hwr⟩ := hA.mem_right hr
  have hwrit := hwr.2.written (hF w hw)
  have hty : r.2.type = c1.2.type := by rw [hre]; split <;> rfl
  have hfl : r.2.flag = c1.2.flag := by rw [hre]; split <;> rfl
  have hpa : r.2.params = c1.2.params := by rw [hre]; split <;> rfl
  have hnm : r.1 = c1.1 := by rw [hre]; split <;> rfl
  have hfl2 : l2.2.flag = c1.2.flag := by rw [hrl.2.flag, hwrit, hfl]
  refine ⟨by show l2.1 = c1.1; rw [hrl.1, hnm], by show l2.2.type = c1.2.type; rw [hrl.2.type, hty], hfl2,
    by show l2.2.params = c1.2.params; rw [hrl.2.params, hwrit, hpa], ?_⟩
  have hel := hrl.2.elems
  have hkr : kindD r.2 = kindD c1.2 := by unfold kindD; rw [hty]
  cases hb : c1.2.flag.getLsbD 18
  · rw [if_neg (by rw [hb]; exact Bool.false_ne_true)] at hre
    subst hre
    refine hel.mapRight _ fun e1 he1 e2 _ hee => ?_
    simp only [Bool.false_eq_true, if_false]
    unfold LoadedElem at hee
    rw [if_neg (by rw [hfl2, hb]; exact Bool.false_ne_true)] at hee
    obtain ⟨⟨o1, ho1, ho2⟩, ha⟩ := hee
    rw [hfl2] at ho2 ha
    refine ⟨fun hcp => by rw [withD_addr]; exact ha hcp, o1, _, ho1, withD_some _ _ _ ho2, ?_⟩
    -- what it was
    obtain ⟨l, hl', hlc⟩ := List.mem_map.1 hc1
    obtain ⟨w', hw', hwl⟩ := hL.mem_right hl'
    have he1' := he1
    rw [← hlc] at he1'
    simp only at he1'
    obtain ⟨e', he', hee'⟩ := List.mem_map.1 he1'
    obtain ⟨e, he, hle⟩ := hwl.2.elems.mem_right he'
    have hlf : l.2.flag = r.2.flag := by rw [← hlc]
    have hlk : kindD r.2 = kindD w'.2 := by rw [← hlc]; unfold kindD; rw [← hwl.2.type]
    unfold LoadedElem at hle
    rw [hlf, if_neg (by rw [hb]; exact Bool.false_ne_true)] at hle
    obtain ⟨⟨o, ho, hoe'⟩, ha'⟩ := hle
    have ho1e : o1 = (keptObj std r.2.flag T ((pidsOf o).map fun p => T p.addr) o).setD (kids L e'.addr) := by
      have := withD_some (kids L) e' _ hoe'
      rw [hee', ho1, Option.some.injEq] at this
      exact this
    have hnum := (hF w' hw').numbers e he o ho
    have hsame := same_kept std hl r.2.flag T T2 (hT2.null 0 h0) ((pidsOf o).map fun p => T p.addr) o (List.length_map ..) hnum (kids L e'.addr) o1 ho1e
    by_cases hmc : ∃ m, o1 = .mcParticle m
    · -- daughters
      obtain ⟨m, hm⟩ := hmc
      obtain ⟨o1', ho1', hok1⟩ := (hok2 r hr).objects hb e1 he1
      rw [ho1, Option.some.injEq] at ho1'
      subst ho1'
      have hk : kindD r.2 = .mcParticle := by
        rw [hm] at hok1
        generalize kindD r.2 = k at hok1
        cases k <;> simp only [ObjOk] at hok1
        rfl
      have hcp : canPointAt r.2.flag (kindD r.2) = true := by rw [hk]; rfl
      have hxa : e1.addr = e'.addr := by rw [← hee', withD_addr]
      have hx : e1.addr ∈ allTagged (resolved (withDaughters (kids L) L)) := by
        unfold allTagged
        refine List.mem_flatMap.2 ⟨r, hr, ?_⟩
        unfold tagged
        rw [if_neg (by rw [hb]; exact Bool.false_ne_true), hcp]
        exact List.mem_flatMap.2 ⟨e1, he1, List.mem_append_right _ (by simp)⟩
      rw [ha hcp, hkids _ hx, hxa]
      exact hsame
    · have hne : ∀ ds ds', (keptObj std r.2.flag T2 ((pidsOf o1).map fun p => T2 p.addr) o1).setD ds =
          (keptObj std r.2.flag T2 ((pidsOf o1).map fun p => T2 p.addr) o1).setD ds' := by
        intro ds ds'
        cases o1 <;> first | rfl | exact absurd ⟨_, rfl⟩ hmc
      rw [hne _ ((kids L e'.addr).map T2)]
      exact hsame
  · rw [if_pos hb] at hre
    subst hre
    refine (All2.mapLeft _ hel).mapRight _ fun e1 he1 e2 _ hee => ?_
    simp only [if_true]
    unfold LoadedElem at hee
    rw [if_pos (by rw [hfl2, hb])] at hee
    rw [hee]
    rfl

end Lcio
