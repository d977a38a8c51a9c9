import Verif.Spec.StdHepJob
import Verif.Sio.FlatLemmas
import Verif.Props.Events
/-
Sizes of the records that stdhepjob writes.
-/
namespace Util
open Sio Lcio Spec

/-- The calls can be made and give at most `n` bytes. -/
def AtMost (n : Nat) (is : List Item) : Prop := (∀ i ∈ is, fits i) ∧ (bytesOf is).length ≤ n

theorem AtMost.nil : AtMost 0 [] := ⟨fun _ h => (nomatch h), Nat.le_refl 0⟩

theorem AtMost.append {n m : Nat} {a b : List Item} (ha : AtMost n a) (hb : AtMost m b) : AtMost (n + m) (a ++ b) := by
  refine ⟨fun i hi => (List.mem_append.1 hi).elim (ha.1 i) (hb.1 i), ?_⟩
  rw [bytesOf_append, List.length_append]
  have := ha.2; have := hb.2
  omega

theorem AtMost.mono {n m : Nat} {a : List Item} (h : AtMost n a) (hm : n ≤ m) : AtMost m a := ⟨h.1, Nat.le_trans h.2 hm⟩

theorem AtMost.flatMap {α : Type} {k : Nat} (w : α → List Item) : ∀ (l : List α), (∀ x ∈ l, AtMost k (w x)) → AtMost (k * l.length) (l.flatMap w) := by
  intro l
  induction l with
  | nil => intro _; exact AtMost.nil
  | cons x l ih =>
    intro h
    rw [List.flatMap_cons, List.length_cons, Nat.mul_add, Nat.mul_one, Nat.add_comm]
    exact (h x List.mem_cons_self).append (ih fun y hy => h y (List.mem_cons_of_mem _ hy))

theorem atMost_arr (sz : Nat) (v : List Nat) (h : sz * v.length + 3 < 2 ^ 32) : AtMost (sz * v.length + 3) [.arr sz v] := by
  refine ⟨fun i hi => by rw [List.mem_singleton.1 hi]; exact h, ?_⟩
  show (itemBytes (.arr sz v) ++ []).length ≤ _
  rw [List.append_nil]
  show (wireArray sz v).length ≤ _
  rw [wireArray_length]
  unfold padding
  omega

theorem atMost_w32 (v : W32) : AtMost 8 (w32 v) := (atMost_arr 4 [v.toNat] (by simp)).mono (by simp)
theorem atMost_w64 (v : W64) : AtMost 12 (w64 v) := (atMost_arr 8 [v.toNat] (by simp)).mono (by simp)
theorem atMost_w64s (v : List W64) (h : v.length = 3) : AtMost 28 (w64s v) :=
  (atMost_arr 8 (v.map BitVec.toNat) (by rw [List.length_map, h]; decide)).mono (by rw [List.length_map, h]; decide)
theorem atMost_ptr (a : Nat) : AtMost 4 (wPtr a) := by
  refine ⟨fun i hi => by rw [List.mem_singleton.1 hi]; exact trivial, ?_⟩
  show (itemBytes (.ptr a) ++ []).length ≤ 4
  simp [itemBytes, bigEndian_length]
theorem atMost_tag (a : Nat) : AtMost 4 (wTag a) := by
  refine ⟨fun i hi => by rw [List.mem_singleton.1 hi]; exact trivial, ?_⟩
  show (itemBytes (.tag a) ++ []).length ≤ 4
  simp [itemBytes, bigEndian_length]

theorem atMost_str (s : Str) (h : s.length < 2 ^ 31) : AtMost (s.length + 11) (wStr s) := by
  unfold wStr
  rw [if_pos h]
  have := atMost_arr 1 (s.map UInt8.toNat) (by rw [List.length_map]; omega)
  refine ((atMost_w32 _).append this).mono ?_
  rw [List.length_map]; omega

theorem atMost_for {α : Type} {k : Nat} (w : α → List Item) (l : List α) (h : ∀ x ∈ l, AtMost k (w x)) : AtMost (8 + k * l.length) (wFor w l) := by
  unfold wFor
  refine (atMost_w32 _).append ((AtMost.flatMap (k := k) w _ fun x hx => h x (List.mem_of_mem_take hx)).mono ?_)
  exact Nat.mul_le_mul_left k (by rw [List.length_take]; omega)

theorem atMost_if {n : Nat} (c : Bool) (is : List Item) (h : AtMost n is) : AtMost n (wIf c is) := by
  unfold wIf
  split
  · exact h
  · exact AtMost.nil.mono (Nat.zero_le _)

theorem atMost_particle (ctx : Ctx) (a : Nat) (o : MCParticle) (h : MCParticleOk o) : AtMost (4 * o.parents.length + 256) (o.write ctx a) := by
  have f3 : ∀ l : List W32, l.length = 3 → AtMost 24 (l.flatMap w32) := by
    intro l hl
    have := AtMost.flatMap (k := 8) w32 l fun x _ => atMost_w32 x
    rw [hl] at this
    exact this
  have f2 : ∀ l : List W32, l.length = 2 → AtMost 16 (l.flatMap w32) := by
    intro l hl
    have := AtMost.flatMap (k := 8) w32 l fun x _ => atMost_w32 x
    rw [hl] at this
    exact this
  unfold MCParticle.write
  have := (((((((((((((atMost_tag a).append (atMost_for (k := 4) wPtr o.parents fun x _ => atMost_ptr x)).append (atMost_w32 o.pdg)).append (atMost_w32 o.genStatus)).append
    (atMost_w32 o.simStatus)).append (atMost_w64s o.vertex h.vertex)).append (atMost_w32 o.time)).append
    (f3 (o.p.map ctx.std.narrow) (by rw [List.length_map, h.p]))).append (atMost_w32 (ctx.std.narrow o.mass))).append (atMost_w32 o.charge)).append
    (atMost_if (o.simStatus.getLsbD 31) _ (atMost_w64s o.endpoint h.endpoint))).append
    (atMost_if (o.simStatus.getLsbD 31) _ (f3 (o.pEndpoint.map ctx.std.narrow) (by rw [List.length_map, h.pEndpoint])))).append (f3 o.spin h.spin)).append
    (f2 o.colorFlow h.colorFlow)
  exact this.mono (by omega)

/-- Parameters of which there is at most one of each kind, with a short name and one value, and no texts. -/
structure FewParams (p : Params) : Prop where
  ints : p.ints = [] ∨ ∃ v, p.ints = [(str "_idrup", [v])]
  floats : ∃ v, p.floats = [(str "_weight", [v])]
  strs : p.strs = []

theorem atMost_few (p : Params) (h : FewParams p) : AtMost 200 p.write := by
  obtain ⟨h1, ⟨v, h2⟩, h3⟩ := h
  have ho : ∀ (k : Str) (v : W32), k.length < 20 → eqv strLt k k = true → AtMost 60 (writeMap w32 [(k, [v])]) := by
    intro k v hk hq
    have : writeMap w32 [(k, [v])] = w32 1 ++ ((wStr k ++ w32 (BitVec.ofNat 32 (getVals [(k, [v])] k []).length) ++ (getVals [(k, [v])] k []).flatMap w32) ++ []) := rfl
    rw [this]
    have hv : getVals [(k, [v])] k ([] : List W32) = [v] := by
      unfold getVals omFind
      simp [hq]
    rw [hv, List.append_nil]
    refine ((atMost_w32 _).append (((atMost_str k (by omega)).append (atMost_w32 _)).append (AtMost.flatMap (k := 8) w32 [v] fun x _ => atMost_w32 x))).mono ?_
    simp only [List.length_cons, List.length_nil]
    omega
  have he : ∀ {α : Type} (w : α → List Item), AtMost 60 (writeMap w []) := by
    intro α w
    exact (((atMost_w32 0).append AtMost.nil).mono (by decide))
  unfold Params.write
  rw [h2, h3]
  have hi : AtMost 60 (writeMap w32 p.ints) := by
    rcases h1 with h1 | ⟨v, h1⟩
    · rw [h1]; exact he _
    · rw [h1]; exact ho _ _ (by decide) (by decide)
  exact ((hi.append (ho _ _ (by decide) (by decide))).append (he _)).mono (by decide)


/-! ## The event -/

/-- What the collections of the readers have, and that there are not too many particles. -/
structure Shape (c : HepCollection) : Prop where
  same : c.relatives.length = c.particles.length
  few : c.particles.length < 10000
  lists : ∀ p ∈ c.particles, p.vertex.length = 3 ∧ p.momentum.length = 3 ∧ p.spin.length = 3 ∧ p.colorFlow.length = 2
  nodup : ∀ n ∈ c.relatives, n.parents.Nodup
  inside : ∀ n ∈ c.relatives, ∀ j ∈ n.parents, j < c.particles.length

theorem nodup_below (l : List Nat) (n : Nat) (h : l.Nodup) (hb : ∀ x ∈ l, x < n) : l.length ≤ n := by
  have := h.length_le_of_subset (l₂ := List.range n) fun x hx => List.mem_range.2 (hb x hx)
  rwa [List.length_range] at this

theorem hepCol_get (third : Int → W32) (c : HepCollection) (i : Nat) (p : HepParticle) (n : PNode) (hp : c.particles[i]? = some p) (hn : c.relatives[i]? = some n) :
    (hepCol third c).elems[i]? = some ⟨i + 1, some (.mcParticle (hepMC third p n))⟩ := by
  unfold hepCol
  have : (c.particles.zip c.relatives)[i]? = some (p, n) := List.getElem?_zip_eq_some.2 ⟨hp, hn⟩
  simp only [List.getElem?_map, List.getElem?_zipIdx, this, Option.map_some, Nat.zero_add]

theorem hepCol_length (third : Int → W32) (c : HepCollection) (h : Shape c) : (hepCol third c).elems.length = c.particles.length := by
  unfold hepCol
  simp only [List.length_map, List.length_zipIdx, List.length_zip, h.same, Nat.min_self]

theorem hepCol_addrs (third : Int → W32) (c : HepCollection) (h : Shape c) : (hepCol third c).elems.map (·.addr) = (List.range c.particles.length).map (· + 1) := by
  refine List.ext_getElem? fun i => ?_
  rcases Nat.lt_or_ge i c.particles.length with hi | hi
  · rw [List.getElem?_map, hepCol_get third c i _ _ (List.getElem?_eq_getElem hi) (List.getElem?_eq_getElem (by rw [h.same]; exact hi)), List.getElem?_map,
      List.getElem?_range hi]
    rfl
  · rw [List.getElem?_eq_none (by rw [List.length_map, hepCol_length third c h]; exact hi), List.getElem?_eq_none (by rw [List.length_map, List.length_range]; exact hi)]

theorem hepCol_mem (third : Int → W32) (c : HepCollection) (h : Shape c) (e : Elem) (he : e ∈ (hepCol third c).elems) :
    ∃ (i : Nat) (p : HepParticle) (n : PNode), c.particles[i]? = some p ∧ c.relatives[i]? = some n ∧ e = ⟨i + 1, some (.mcParticle (hepMC third p n))⟩ := by
  obtain ⟨i, hi⟩ := List.mem_iff_getElem?.1 he
  have hl : i < c.particles.length := by
    have := (List.getElem?_eq_some_iff.1 hi).1
    rwa [hepCol_length third c h] at this
  have hp := List.getElem?_eq_getElem hl
  have hn := List.getElem?_eq_getElem (l := c.relatives) (i := i) (by rw [h.same]; exact hl)
  rw [hepCol_get third c i _ _ hp hn] at hi
  exact ⟨i, _, _, hp, hn, (Option.some.inj hi).symm⟩

theorem hepMC_ok (third : Int → W32) (c : HepCollection) (h : Shape c) (i : Nat) (p : HepParticle) (n : PNode) (hp : c.particles[i]? = some p) (hn : c.relatives[i]? = some n) :
    MCParticleOk (hepMC third p n) ∧ (hepMC third p n).parents.length ≤ c.particles.length := by
  obtain ⟨l1, l2, l3, l4⟩ := h.lists p (List.mem_of_getElem? hp)
  have hm := List.mem_of_getElem? hn
  have hpl : (hepMC third p n).parents.length ≤ c.particles.length := by
    show (n.parents.map (· + 1)).length ≤ _
    rw [List.length_map]
    exact nodup_below _ _ (h.nodup n hm) (h.inside n hm)
  refine ⟨⟨l1, l2, rfl, rfl, l3, by show (p.colorFlow.map _).length = 2; rw [List.length_map, l4], ?_⟩, hpl⟩
  have := h.few
  show _ < 2 ^ 31
  omega

theorem hepCol_kind (third : Int → W32) (c : HepCollection) : kindOf (hepCol third c).type = some .mcParticle :=
  (by decide : kindOf (str "MCParticle") = some .mcParticle)

theorem kindD_hepCol (third : Int → W32) (c : HepCollection) : kindD (hepCol third c) = .mcParticle := rfl

theorem hepCol_few (third : Int → W32) (c : HepCollection) : FewParams (hepCol third c).params := by
  refine ⟨?_, ⟨_, rfl⟩, rfl⟩
  unfold hepCol
  cases c.idrup with
  | none => exact Or.inl rfl
  | some n => exact Or.inr ⟨_, rfl⟩

theorem few_ok (p : Params) (h : FewParams p) : ParamsOk p := by
  obtain ⟨h1, ⟨v, h2⟩, h3⟩ := h
  have hm : ∀ (k : Str) (v : W32), k.length < 20 → MapOk (fun _ => True) [(k, [v])] := by
    intro k v hk
    refine ⟨List.pairwise_singleton _ _, by simp, fun e he => ?_, fun e he => ?_, fun _ _ _ _ => trivial⟩
    · rw [List.mem_singleton.1 he]; show k.length < _; omega
    · rw [List.mem_singleton.1 he]; show [v].length < _; simp
  have hn : ∀ {α : Type} (q : α → Prop), MapOk q [] := fun q => ⟨List.Pairwise.nil, by simp, fun _ h => (nomatch h), fun _ h => (nomatch h), fun _ h => (nomatch h)⟩
  refine ⟨?_, by rw [h2]; exact hm _ _ (by decide), by rw [h3]; exact hn _⟩
  rcases h1 with h1 | ⟨v, h1⟩
  · rw [h1]; exact hn _
  · rw [h1]; exact hm _ _ (by decide)

theorem hepCol_write (std : Std Pid) (third : Int → W32) (c : HepCollection) (h : Shape c) : AtMost (2 ^ 30) ((hepCol third c).write std) := by
  have hw : (hepCol third c).write std = writeHead .mcParticle { std, flag := 0 } (hepCol third c) ++
      wFor (Elem.write .mcParticle { std, flag := 0 }) (hepCol third c).elems := by
    unfold Collection.write
    rw [hepCol_kind]
    show writeHead .mcParticle { std, flag := 0 } (hepCol third c) ++
      wFor (if (0 : W32).getLsbD 18 = true then fun e => wPtr e.addr else Elem.write .mcParticle { std, flag := 0 }) (hepCol third c).elems = _
    rw [if_neg (by decide)]
  rw [hw]
  have hh : AtMost 208 (writeHead .mcParticle { std, flag := 0 } (hepCol third c)) := by
    have : writeHead .mcParticle { std, flag := 0 } (hepCol third c) = w32 0 ++ (hepCol third c).params.write ++ [] ++ [] ++ [] := rfl
    rw [this]
    exact (((((atMost_w32 0).append (atMost_few _ (hepCol_few third c))).append AtMost.nil).append AtMost.nil).append AtMost.nil).mono (by decide)
  have he : ∀ e ∈ (hepCol third c).elems, AtMost 40256 (e.write .mcParticle { std, flag := 0 }) := by
    intro e he
    obtain ⟨i, p, n, hp, hn, rfl⟩ := hepCol_mem third c h e he
    obtain ⟨h1, h2⟩ := hepMC_ok third c h i p n hp hn
    have := h.few
    exact (atMost_particle { std, flag := 0 } (i + 1) _ h1).mono (by omega)
  refine (hh.append (atMost_for (k := 40256) _ _ he)).mono ?_
  rw [hepCol_length third c h]
  have := h.few
  omega

theorem hepCol_ok (std : Std Pid) (third : Int → W32) (c : HepCollection) (h : Shape c) : CollectionOk std .mcParticle (hepCol third c) := by
  refine ⟨hepCol_kind third c, ?_, rfl, few_ok _ (hepCol_few third c), fun _ e he => ?_, fun h => (nomatch h), fun h => (nomatch h)⟩
  · rw [hepCol_length third c h]
    have := h.few
    show _ < 2 ^ 31
    omega
  · obtain ⟨i, p, n, hp, hn, rfl⟩ := hepCol_mem third c h e he
    exact ⟨_, rfl, (hepMC_ok third c h i p n hp hn).1⟩

theorem writable_one (name : Str) (b : WBlock) (hn : validRecordName name = true) (hl : name.length < 100) (hb : b.name.length < 100) (h : AtMost (2 ^ 30 + 2 ^ 20) b.items) :
    Writable name [b] ∧ dataLen [b] < 2 ^ 31 := by
  have h1 : blockLen b < 2 ^ 30 + 2 ^ 21 := by
    unfold blockLen blockHeaderLen padding
    have := h.2
    omega
  have h2 : dataLen [b] = blockLen b := by
    have e1 : ∀ (n : Nat), itemLen (word n) = 4 := fun n => by simp [itemLen, itemBytes, word, wireArray, bigEndian_length, padding]
    have e2 : itemLen (chars b.name) = b.name.length + padding b.name.length := by
      simp [itemLen, itemBytes, chars, wireArray_length]
    unfold dataLen blocksItems blockItems
    rw [List.flatMap_cons, List.flatMap_nil, List.append_nil, bytesOf_append, List.length_append, bytesOf_length]
    unfold hdrItems blockLen blockHeaderLen
    simp only [List.map_cons, List.map_nil, List.sum_cons, List.sum_nil, e1, e2]
    omega
  refine ⟨⟨hn, fun b' hb' => ?_, ?_⟩, by omega⟩
  · rw [List.mem_singleton.1 hb']
    exact ⟨by omega, h.1, by omega⟩
  · rw [h2]
    unfold headerLen padding
    omega

theorem eventBlocks_one (std : Std Pid) (third : Int → W32) (u : HepUpdate) :
    eventBlocks std [] (hepEventCols third u) = [⟨str "MCParticle", blockVersion, (hepCol third u.2.2).write std⟩] := by
  have h : (hepEventCols third u).filter (fun c => !c.2.isTransient && !notSelected [] c.1) = hepEventCols third u := by
    unfold hepEventCols
    rw [List.filter_cons, if_pos (by show (!(0 : W32).getLsbD 16 && !notSelected [] (str "MCParticle")) = true; decide)]
    rfl
  unfold eventBlocks
  rw [h]
  rfl

theorem storedCols_one (third : Int → W32) (u : HepUpdate) : storedCols [] (hepEventCols third u) = hepEventCols third u := by
  unfold storedCols hepEventCols
  rw [List.filter_cons, if_pos (by show (!(0 : W32).getLsbD 16 && (([] : List Str).isEmpty || ([] : List Str).contains (str "MCParticle"))) = true; decide)]
  rfl

theorem wanted_one (third : Int → W32) (u : HepUpdate) : wantedCols [] (storedCols [] (hepEventCols third u)) = hepEventCols third u := by
  rw [storedCols_one]
  unfold wantedCols
  exact List.filter_eq_self.2 fun _ _ => rfl

theorem event_writable (std : Std Pid) (third : Int → W32) (u : HepUpdate) (h : Shape u.2.2) :
    Writable eventRecordName (eventBlocks std [] (hepEventCols third u)) ∧ dataLen (eventBlocks std [] (hepEventCols third u)) < 2 ^ 31 := by
  rw [eventBlocks_one]
  exact writable_one _ _ (by decide) (by decide) (by show (str "MCParticle").length < 100; decide) ((hepCol_write std third u.2.2 h).mono (by decide))

theorem header_few (count : Nat) (u : HepUpdate) : FewParams (hepEventHeader count u).params := ⟨Or.inr ⟨_, rfl⟩, ⟨_, rfl⟩, rfl⟩

theorem header_writable (third : Int → W32) (count : Nat) (u : HepUpdate) :
    Writable headerRecordName [EventHeader.block [] { hepEventHeader count u with cols := colHeads (hepEventCols third u) }] ∧
      dataLen [EventHeader.block [] { hepEventHeader count u with cols := colHeads (hepEventCols third u) }] < 2 ^ 31 := by
  refine writable_one _ _ (by decide) (by decide) (by show (str "EventHeader").length < 100; decide) ?_
  have hw : (EventHeader.block [] { hepEventHeader count u with cols := colHeads (hepEventCols third u) }).items =
      w32 0 ++ w32 (BitVec.ofNat 32 count) ++ w64 0 ++ wStr (str "Unknown") ++ w32 1 ++ ((wStr (str "MCParticle") ++ wStr (str "MCParticle")) ++ []) ++ (hepEventHeader count u).params.write := by
    show EventHeader.write [] _ = _
    unfold EventHeader.write
    have hc : colHeads (hepEventCols third u) = [(str "MCParticle", ⟨str "MCParticle", 0⟩)] := rfl
    simp only [hc]
    have h1 : (ColHead.mk (str "MCParticle") 0).isTransient = false := by decide
    have h2 : notSelected [] (str "MCParticle") = false := by decide
    have h3 : (ColHead.mk (str "MCParticle") 0).isSubset = false := by decide
    simp only [List.flatMap_cons, List.flatMap_nil, h1, h2, h3, List.countP_cons, List.countP_nil]
    rfl
  rw [hw, List.append_nil]
  have hs := fun s h => atMost_str s h
  exact (((((((atMost_w32 0).append (atMost_w32 _)).append (atMost_w64 0)).append (hs (str "Unknown") (by decide))).append (atMost_w32 1)).append
    ((hs (str "MCParticle") (by decide)).append (hs (str "MCParticle") (by decide)))).append (atMost_few _ (header_few count u))).mono (by decide)

theorem tagged_hep (third : Int → W32) (u : HepUpdate) (h : Shape u.2.2) : allTagged (hepEventCols third u) = (List.range u.2.2.particles.length).map (· + 1) := by
  show tagged 0 .mcParticle (hepCol third u.2.2).elems ++ [] = _
  rw [List.append_nil, ← hepCol_addrs third u.2.2 h]
  show (hepCol third u.2.2).elems.flatMap _ = _
  have : ∀ es : List Elem, (∀ e ∈ es, ∃ o, e.obj = some (.mcParticle o)) →
      (es.flatMap fun e => (match e.obj with | some o => (pidsOf o).map (·.addr) | none => []) ++ if canPointAt 0 .mcParticle then [e.addr] else []) = es.map (·.addr) := by
    intro es
    induction es with
    | nil => intro _; rfl
    | cons e es ih =>
      intro he
      obtain ⟨o, ho⟩ := he e List.mem_cons_self
      rw [List.flatMap_cons, ih fun e h => he e (List.mem_cons_of_mem _ h), ho]
      rfl
  exact this _ fun e he => by
    obtain ⟨i, p, n, hp, hn, rfl⟩ := hepCol_mem third _ h e he
    exact ⟨_, rfl⟩

theorem event_storable (std : Std Pid) (ignoreNull : Bool) (third : Int → W32) (count : Nat) (u : HepUpdate) (h : Shape u.2.2) :
    Storable std ignoreNull [] [] (hepEventHeader count u) (hepEventCols third u) := by
  have hmc : isMC (str "MCParticle", hepCol third u.2.2) = true := by
    show (str "MCParticle" == str "MCParticle" && !(0 : W32).getLsbD 18) = true
    decide
  refine ⟨⟨by show (str "Unknown").length < _; decide, by show [_].length < _; simp, List.pairwise_singleton _ _, ?_, ?_, few_ok _ (header_few count u)⟩, (header_writable third count u).1, ⟨?_, ?_, (event_writable std third u h).1, ?_, ?_⟩, ?_, ?_⟩
  · intro c hc
    rw [List.mem_singleton.1 hc]
    exact ⟨by show validate (str "MCParticle") = true; decide, by show (str "MCParticle").length < _; decide⟩
  · intro c hc
    rw [List.mem_singleton.1 hc]
    show (str "MCParticle").length + 11 < _
    decide
  · exact List.nodup_cons.2 ⟨List.not_mem_nil, List.nodup_nil⟩
  · intro c hc
    rw [storedCols_one] at hc
    rw [List.mem_singleton.1 hc]
    exact hepCol_ok std third _ h
  · rw [storedCols_one, tagged_hep third u h]
    exact List.nodup_range.map fun a b hab => by omega
  · rw [storedCols_one, tagged_hep third u h]
    intro h0
    obtain ⟨x, _, hx⟩ := List.mem_map.1 h0
    omega
  · rw [wanted_one]
    show ParentsEarlier [(str "MCParticle", hepCol third u.2.2)]
    intro pre c post hc _ e he p hp
    have hpre : pre = [] ∧ c = (str "MCParticle", hepCol third u.2.2) := by
      cases pre with
      | nil => exact ⟨rfl, (List.cons.inj hc).1.symm⟩
      | cons a l =>
        have := (List.cons.inj hc).2
        cases l <;> cases this
    obtain ⟨rfl, rfl⟩ := hpre
    show p ∈ (if isMC (str "MCParticle", hepCol third u.2.2) then (hepCol third u.2.2).elems.map (·.addr) else []) ++ []
    rw [hmc, if_pos rfl, List.append_nil, hepCol_addrs third _ h]
    obtain ⟨i, q, n, hq, hn, rfl⟩ := hepCol_mem third _ h e he
    have hp : p ∈ n.parents.map (· + 1) := hp
    obtain ⟨j, hj, rfl⟩ := List.mem_map.1 hp
    exact List.mem_map_of_mem (List.mem_range.2 (h.inside n (List.mem_of_getElem? hn) j hj))
  · right
    rw [wanted_one]
    intro c hc hb
    rw [List.mem_singleton.1 hc] at hb
    exact absurd hb (by show (0 : W32).getLsbD 18 ≠ true; decide)

/-! ## Loading -/

theorem children_at (x : Nat) (P : Nat → Bool) : ∀ (es : List Elem) (k : Nat), (∀ (j : Nat) e, es[j]? = some e → e.addr = k + j + 1 ∧
    ((parentsOf e).filter (· == x)).length = if P (k + j) then 1 else 0) → childrenOf es x = ((List.range' k es.length).filter P).map (· + 1) := by
  intro es
  induction es with
  | nil => intro k _; rfl
  | cons e es ih =>
    intro k h
    obtain ⟨h1, h2⟩ := h 0 e rfl
    have hrest := ih (k + 1) fun j e' he' => by
      have := h (j + 1) e' he'
      rwa [show k + (j + 1) = k + 1 + j by omega] at this
    unfold childrenOf at hrest ⊢
    rw [List.flatMap_cons, hrest, List.length_cons, List.range'_succ, List.filter_cons]
    rw [Nat.add_zero] at h1 h2
    by_cases hp : P k
    · rw [if_pos hp] at h2
      rw [if_pos hp, List.map_cons]
      obtain ⟨y, hy⟩ := List.length_eq_one_iff.1 h2
      rw [hy, h1]
      rfl
    · rw [if_neg hp] at h2
      rw [if_neg hp, List.length_eq_zero_iff.1 h2]
      rfl

theorem filter_once (l : List Nat) (i : Nat) (h : l.Nodup) : ((l.map (· + 1)).filter (· == i + 1)).length = if decide (i ∈ l) = true then 1 else 0 := by
  induction l with
  | nil => rfl
  | cons a l ih =>
    obtain ⟨ha, hl⟩ := List.nodup_cons.1 h
    rw [List.map_cons, List.filter_cons]
    by_cases hai : a = i
    · subst hai
      have := ih hl
      rw [if_neg (by simpa using ha)] at this
      rw [if_pos (by simp), List.length_cons, this]
      simp
    · rw [if_neg (by simp; omega), ih hl]
      have : (i ∈ a :: l) ↔ i ∈ l := by rw [List.mem_cons]; exact ⟨fun h => h.resolve_left fun h => hai h.symm, Or.inr⟩
      simp only [this]

theorem hep_children (third : Int → W32) (c : HepCollection) (h : Shape c)
    (hsym : ∀ (i j : Nat) a b, c.relatives[i]? = some a → c.relatives[j]? = some b → (j ∈ a.daughters ↔ i ∈ b.parents))
    (i : Nat) (n : PNode) (hn : c.relatives[i]? = some n) :
    childrenOf (hepCol third c).elems (i + 1) = ((List.range c.particles.length).filter (· ∈ n.daughters)).map (· + 1) := by
  rw [children_at (i + 1) (fun j => decide (j ∈ n.daughters)) (hepCol third c).elems 0, hepCol_length third c h, List.range_eq_range']
  intro j e he
  have hl : j < c.particles.length := by
    have := (List.getElem?_eq_some_iff.1 he).1
    rwa [hepCol_length third c h] at this
  have hp := List.getElem?_eq_getElem hl
  have hm := List.getElem?_eq_getElem (l := c.relatives) (i := j) (by rw [h.same]; exact hl)
  rw [hepCol_get third c j _ _ hp hm] at he
  cases he
  refine ⟨by simp, ?_⟩
  show (((c.relatives[j]'(by rw [h.same]; exact hl)).parents.map (· + 1)).filter (· == i + 1)).length = _
  rw [filter_once _ _ (h.nodup _ (List.mem_of_getElem? hm)), Nat.zero_add]
  simp only [hsym i j n _ hn hm]

theorem isMC_hep (third : Int → W32) (u : HepUpdate) : mcElems (hepEventCols third u) = (hepCol third u.2.2).elems := by
  show (if isMC (str "MCParticle", hepCol third u.2.2) then (hepCol third u.2.2).elems else []) ++ [] = _
  rw [if_pos (by show (str "MCParticle" == str "MCParticle" && !(0 : W32).getLsbD 18) = true; decide), List.append_nil]

/-- What a reader gets for an event with the particles of a collection. -/
theorem hep_loaded (std : Std Pid) (ignoreNull : Bool) (third : Int → W32) (count : Nat) (u : HepUpdate) (h : Shape u.2.2)
    (hsym : ∀ (i j : Nat) a b, u.2.2.relatives[i]? = some a → u.2.2.relatives[j]? = some b → (j ∈ a.daughters ↔ i ∈ b.parents)) (buf : Str × Str) :
    ∃ h' col addr, storeLoadEvent std ignoreNull [] [] buf 0 1 (hepEventHeader count u) (hepEventCols third u) = .ok (h', [(str "MCParticle", col)]) ∧
      h'.run = 0 ∧ h'.evt = BitVec.ofNat 32 count ∧ h'.det = str "Unknown" ∧ h'.params.ints = [(str "_idrup", [BitVec.ofInt 32 u.1])] ∧
      h'.params.floats = [(str "_weight", [u.2.1])] ∧ h'.params.strs = [] ∧ col.type = str "MCParticle" ∧ col.elems.length = u.2.2.particles.length ∧
      (∀ i, i < u.2.2.particles.length → addr i ≠ 0) ∧ (∀ i j, i < u.2.2.particles.length → j < u.2.2.particles.length → addr i = addr j → i = j) ∧
      ∀ (i : Nat) p n, u.2.2.particles[i]? = some p → u.2.2.relatives[i]? = some n →
        col.elems[i]? = some ⟨addr i, some (.mcParticle { hepMC third p n with
          p := p.momentum.map (viaFloat std), mass := viaFloat std p.mass, parents := n.parents.map addr,
          daughters := ((List.range u.2.2.particles.length).filter (· ∈ n.daughters)).map addr })⟩ := by
  obtain ⟨h', cols', T, e1, e2⟩ := Props.event_final std ignoreNull [] [] (hepEventHeader count u) (hepEventCols third u) (event_storable std ignoreNull third count u h) buf 0 1
    (by decide) (fun T _ e e' => ∀ o, e.obj = some (.mcParticle o) →
          e' = ⟨T e.addr, some (.mcParticle { keptMCParticle std T o with
            daughters := (childrenOf (mcElems (wantedCols [] (storedCols [] (hepEventCols third u)))) e.addr).map T })⟩) (by
      intro T flag flag' k e e' o D hT ho hok hf he' ha hD x hx
      rw [ho] at hx
      cases hx
      cases k <;> simp only [ObjOk] at hok
      obtain ⟨a', o'⟩ := e'
      simp only at he'
      subst he'
      have := ha rfl
      simp only at this
      subst this
      rw [← (hD rfl).2]
      rfl)
  rw [wanted_one] at e2
  have hnames := e2.names
  have hobj := e2.objects
  cases cols' with
  | nil => cases hnames
  | cons c rest =>
    cases rest with
    | cons c2 rest => cases (List.cons.inj hnames).2
    | nil =>
      obtain ⟨name, col⟩ := c
      have hn := (List.cons.inj hnames).1
      have hn1 : name = str "MCParticle" := congrArg Prod.fst hn
      have hn2 : col.type = str "MCParticle" := congrArg Prod.snd hn
      subst hn1
      have hel := hobj.2 0 _ _ rfl rfl (by show (0 : W32).getLsbD 18 = false; decide)
      obtain ⟨g1, g2⟩ := hel
      have g1 : (hepCol third u.2.2).elems.length = col.elems.length := g1
      rw [hepCol_length third _ h] at g1
      have htag : ∀ i, i < u.2.2.particles.length → i + 1 ∈ allTagged (hepEventCols third u) := by
        intro i hi
        rw [tagged_hep third u h]
        exact List.mem_map_of_mem (List.mem_range.2 hi)
      refine ⟨h', col, fun i => T (i + 1), e1, e2.run, e2.evt, e2.det, e2.ints, e2.floats, e2.strs, hn2, g1.symm, fun i hi => e2.pointers.nonNull _ (htag i hi),
        fun i j hi hj hij => by have := e2.pointers.distinct _ (htag i hi) _ (htag j hj) hij; omega, ?_⟩
      intro i p n hp hn
      have hi : i < u.2.2.particles.length := (List.getElem?_eq_some_iff.1 hp).1
      have hc := List.getElem?_eq_getElem (l := col.elems) (i := i) (by omega)
      have := g2 i _ _ (hepCol_get third u.2.2 i p n hp hn) hc _ rfl
      rw [hc, this, isMC_hep, hep_children third _ h hsym i n hn, List.map_map]
      refine congrArg some ?_
      refine congrArg (fun o => (⟨T (i + 1), some (.mcParticle o)⟩ : Elem)) ?_
      unfold keptMCParticle hepMC
      simp only [List.map_map]
      have e : ∀ a b : List W64, ifBit (0 : W32) 31 a b = b := fun a b => by unfold ifBit; rw [if_neg (by decide)]
      rw [e, e]
      rfl

end Util
