import Verif.Lcio.EventLemmas2
import Verif.Lcio.RestoreLemmas
/-
Writing and reading whole events.
-/
namespace Lcio
open Sio Spec

theorem _root_.Spec.All2.cons_inv {α β : Type} {R : α → β → Prop} {a : α} {l : List α} {l' : List β} (h : All2 R (a :: l) l') :
    ∃ b t, l' = b :: t ∧ R a b ∧ All2 R l t := by
  cases l' with
  | nil => exact absurd h.1 (by simp)
  | cons b t =>
    refine ⟨b, t, rfl, h.2 0 a b rfl rfl, by simpa using h.1, ?_⟩
    intro i x y hx hy
    exact h.2 (i + 1) x y (by simpa using hx) (by simpa using hy)

theorem _root_.Spec.All2.nil_inv {α β : Type} {R : α → β → Prop} {l' : List β} (h : All2 R [] l') : l' = [] := by
  have := h.1
  exact List.length_eq_zero_iff.1 this.symm

theorem _root_.Spec.All2.split {α β : Type} {R : α → β → Prop} {l : List α} {pre : List β} {c : β} {post : List β} (h : All2 R l (pre ++ c :: post)) :
    ∃ p a q, l = p ++ a :: q ∧ All2 R p pre ∧ R a c ∧ All2 R q post := by
  induction pre generalizing l with
  | nil =>
    cases l with
    | nil => exact absurd h.1 (by simp)
    | cons a l =>
      obtain ⟨b, t, h1, h2, h3⟩ := h.cons_inv
      cases h1
      exact ⟨[], a, l, rfl, All2.nil _, h2, h3⟩
  | cons x pre ih =>
    cases l with
    | nil => exact absurd h.1 (by simp)
    | cons a l =>
      obtain ⟨b, t, h1, h2, h3⟩ := h.cons_inv
      cases h1
      obtain ⟨p, a', q, e1, e2, e3, e4⟩ := ih h3
      exact ⟨a :: p, a', q, by rw [e1]; rfl, All2.cons h2 e2, e3, e4⟩

theorem _root_.Spec.All2.mem_right {α β : Type} {R : α → β → Prop} {l : List α} {l' : List β} (h : All2 R l l') {b : β} (hb : b ∈ l') : ∃ a ∈ l, R a b := by
  obtain ⟨i, hi⟩ := List.getElem?_of_mem hb
  have hlt : i < l.length := by rw [h.1]; exact (List.getElem?_eq_some_iff.1 hi).1
  exact ⟨l[i], List.getElem_mem _, h.2 i _ b (List.getElem?_eq_getElem hlt) hi⟩

theorem _root_.Spec.All2.map_eq {α β γ : Type} {R : α → β → Prop} {l : List α} {l' : List β} (h : All2 R l l') (f : α → γ) (g : β → γ)
    (hR : ∀ a ∈ l, ∀ b ∈ l', R a b → g b = f a) : l'.map g = l.map f := by
  induction l generalizing l' with
  | nil => rw [h.nil_inv]; rfl
  | cons a l ih =>
    obtain ⟨b, t, rfl, h2, h3⟩ := h.cons_inv
    rw [List.map_cons, List.map_cons, hR a (by simp) b (by simp) h2, ih h3 fun x hx y hy => hR x (by simp [hx]) y (by simp [hy])]

theorem _root_.Spec.All2.flatMap_eq {α β γ : Type} {R : α → β → Prop} {l : List α} {l' : List β} (h : All2 R l l') (f : α → List γ) (g : β → List γ)
    (hR : ∀ a ∈ l, ∀ b ∈ l', R a b → g b = f a) : l'.flatMap g = l.flatMap f := by
  rw [List.flatMap_def, List.flatMap_def, h.map_eq f g hR]

/-! ### The event record -/

theorem decoders_find (std : Std Pid) (want : Str → Bool) (cs : List (Str × Collection)) (hn : (cs.map (·.1)).Nodup) (c : Str × Collection) (hc : c ∈ cs) :
    ((cs.filter fun c => want c.1).map fun c => (⟨c.1, Collection.read std c.2.type⟩ : RBlock Collection)).find? (fun d => d.name == c.1) =
      if want c.1 then some ⟨c.1, Collection.read std c.2.type⟩ else none := by
  induction cs with
  | nil => cases hc
  | cons x cs ih =>
    simp only [List.map_cons, List.nodup_cons] at hn
    by_cases hx : want x.1 = true
    · rw [List.filter_cons_of_pos (p := fun c : Str × Collection => want c.1) hx, List.map_cons]
      rcases List.mem_cons.1 hc with rfl | hc
      · simp [hx]
      · have hne : x.1 ≠ c.1 := fun e => hn.1 (e ▸ List.mem_map_of_mem (f := (·.1)) hc)
        rw [List.find?_cons_of_neg (by simpa using hne)]
        exact ih hn.2 hc
    · rw [List.filter_cons_of_neg (p := fun c : Str × Collection => want c.1) hx]
      rcases List.mem_cons.1 hc with rfl | hc
      · rw [if_neg hx]
        rw [List.find?_eq_none]
        intro d hd
        obtain ⟨y, hy, rfl⟩ := List.mem_map.1 hd
        have hne : y.1 ≠ c.1 := fun e => hn.1 (e ▸ List.mem_map_of_mem (f := (·.1)) (List.mem_filter.1 hy).1)
        simpa using hne
      · exact ih hn.2 hc

theorem eventDecoders_eq (std : Std Pid) (heads : List (Str × ColHead)) (cs : List (Str × Collection))
    (h : heads.map (fun c => (c.1, c.2.type)) = cs.map (fun c => (c.1, c.2.type))) :
    eventDecoders std heads = cs.map fun c => (⟨c.1, Collection.read std c.2.type⟩ : RBlock Collection) := by
  have h1 : eventDecoders std heads = (heads.map (fun c => (c.1, c.2.type))).map (fun x => (⟨x.1, Collection.read std x.2⟩ : RBlock Collection)) := by
    unfold eventDecoders; rw [List.map_map]; rfl
  rw [h1, h, List.map_map]; rfl

theorem storedCols_names (only : List Str) (cols : List (Str × Collection)) (h : (cols.map (·.1)).Nodup) : ((storedCols only cols).map (·.1)).Nodup :=
  h.sublist (List.filter_sublist.map _)

theorem eventRecord_ok (std : Std Pid) (only : List Str) (want : Str → Bool) (cols : List (Str × Collection)) (hok : EventOk std only cols)
    (buf : Str) (opts : W32) (next : Nat) (hnext : 0 < next) (heads : List (Str × ColHead))
    (hh : heads.map (fun c => (c.1, c.2.type)) = ((storedCols only cols).filter fun c => want c.1).map (fun c => (c.1, c.2.type))) :
    ∃ info bytes results ρ dev T, writeRecord eventRecordName buf (eventBlocks std only cols) opts = .ok (info, bytes) ∧
      readBlocks (bytes.drop info.headerLength) (eventDecoders std heads) next = .ok (results, ρ, dev) ∧
      All2 (fun c c' => c'.1 = c.1 ∧ LoadedCol std (kindD c.2) T c.2 c'.2) ((storedCols only cols).filter fun c => want c.1)
        (results.map fun c => (c.1, c.2.mapPtr ρ)) ∧
      Pointers ((storedCols only cols).filter fun c => want c.1) T := by
  have hsize := hok.size
  rw [eventBlocks_eq] at hsize ⊢
  rw [eventDecoders_eq std heads _ hh]
  generalize hcs : storedCols only cols = cs at *
  have hnames : (cs.map (·.1)).Nodup := hcs ▸ storedCols_names only cols hok.names
  have hdec := fun φ => decodeF_event std want ((cs.filter fun c => want c.1).map fun c => (⟨c.1, Collection.read std c.2.type⟩ : RBlock Collection))
    φ cs next (fun c hc => hok.stored c (by rw [hcs]; exact hc)) (decoders_find std want cs hnames)
  have hst : ∀ c ∈ cs, CollectionOk std (kindD c.2) c.2 := fun c hc => hok.stored c (by rw [hcs]; exact hc)
  have hnd : ((evObjs want next cs).map (·.1)).Nodup := by
    rw [evObjs_fst std want next cs hst, ← hcs]; exact hok.addresses
  have h0 : 0 ∉ (evObjs want next cs).map (·.1) := by
    rw [evObjs_fst std want next cs hst, ← hcs]; exact hok.nonNull
  obtain ⟨info, bytes, φ, r, ρ, dev, h1, h2, h3, h4⟩ := flat_graph eventRecordName buf (cs.map (colBlock std)) opts
    ((cs.filter fun c => want c.1).map fun c => (⟨c.1, Collection.read std c.2.type⟩ : RBlock Collection)) next hsize
    (fun φ => by obtain ⟨slots, h⟩ := hdec φ; rw [h]; rfl)
  obtain ⟨slots, hd⟩ := hdec φ
  rw [hd, Option.some.injEq] at h2
  subst h2
  have hT : ∀ a i, (a, some i) ∈ evObjs want next cs → target (evObjs want next cs) a = i := fun a i => target_mem _ hnd h0 a i
  refine ⟨info, bytes, _, ρ, dev, target (evObjs want next cs), h1, h3, ?_, ?_, ?_, ?_⟩
  · simp only
    rw [mapPtr_loadCols std want φ ρ (target (evObjs want next cs)) next cs hst h4]
    exact loadCols_ok std want _ next cs hst hT
  · intro a ha
    apply target_none
    intro i hi
    exact ha ((evObjs_wanted std want next cs hst a).1 ⟨i, hi⟩)
  · intro a ha
    obtain ⟨i, hi⟩ := (evObjs_wanted std want next cs hst a).2 ha
    rw [hT a i hi]
    have := (evObjs_fresh want next cs).2 i (List.mem_filterMap.2 ⟨_, hi, rfl⟩)
    omega
  · intro a ha b hb hab
    obtain ⟨i, hi⟩ := (evObjs_wanted std want next cs hst a).2 ha
    obtain ⟨j, hj⟩ := (evObjs_wanted std want next cs hst b).2 hb
    rw [hT a i hi, hT b j hj] at hab
    subst hab
    have hn := (evObjs_fresh want next cs).1
    generalize evObjs want next cs = l at hi hj hn
    clear hT h3 h4 hd hdec
    induction l with
    | nil => cases hi
    | cons x l ih =>
      rcases List.mem_cons.1 hi with e1 | hi' <;> rcases List.mem_cons.1 hj with e2 | hj'
      · rw [← e1] at e2; cases e2; rfl
      · exfalso
        rw [← e1, List.filterMap_cons] at hn
        simp only [List.nodup_cons] at hn
        exact hn.1 (List.mem_filterMap.2 ⟨_, hj', rfl⟩)
      · exfalso
        rw [← e2, List.filterMap_cons] at hn
        simp only [List.nodup_cons] at hn
        exact hn.1 (List.mem_filterMap.2 ⟨_, hi', rfl⟩)
      · refine ih hi' hj' ?_
        rw [List.filterMap_cons] at hn
        split at hn
        · exact hn
        · exact (List.nodup_cons.1 hn).2

/-! ### Loaded collections -/

theorem kind_mc (type : Str) (k : Kind) (h : kindOf type = some k) : (type == str "MCParticle") = true ↔ k = .mcParticle := by
  constructor
  · intro ht
    rw [beq_iff_eq] at ht
    subst ht
    have : kindOf (str "MCParticle") = some .mcParticle := by decide
    rw [this] at h
    cases h; rfl
  · intro hk
    subst hk
    unfold kindOf at h
    rw [Option.map_eq_some_iff] at h
    obtain ⟨x, hx, hk⟩ := h
    have h1 := List.mem_of_find?_eq_some hx
    have h2 := List.find?_some hx
    have h3 : ∀ y ∈ handlers, y.2 = Kind.mcParticle → y.1 = str "MCParticle" := by decide
    rw [beq_iff_eq] at h2 ⊢
    rw [← h2]
    exact h3 x h1 hk

/-- Related collections: as in `eventRecord_ok`. -/
def LoadedAs (std : Std Pid) (T : Nat → Nat) (c c' : Str × Collection) : Prop := c'.1 = c.1 ∧ LoadedCol std (kindD c.2) T c.2 c'.2

theorem kindD_eq {c : Collection} {k : Kind} (h : kindOf c.type = some k) : kindD c = k := by unfold kindD; rw [h]; rfl

theorem LoadedAs.flag18 {std : Std Pid} {T : Nat → Nat} {c c' : Str × Collection} (h : LoadedAs std T c c') (hc : CollectionOk std (kindD c.2) c.2) :
    c'.2.flag.getLsbD 18 = c.2.flag.getLsbD 18 := by
  rw [h.2.flag, written_bits std _ c.2 hc 18 (by decide)]

theorem LoadedAs.isMC {std : Std Pid} {T : Nat → Nat} {c c' : Str × Collection} (h : LoadedAs std T c c') (hc : CollectionOk std (kindD c.2) c.2) :
    isMC c' = isMC c := by
  unfold Spec.isMC
  rw [h.flag18 hc, h.2.type]

/-- The elements of a collection of MCParticles. -/
theorem LoadedAs.mc_elem {std : Std Pid} {T : Nat → Nat} {c c' : Str × Collection} (h : LoadedAs std T c c') (hc : CollectionOk std (kindD c.2) c.2)
    (hm : Spec.isMC c = true) : All2 (fun e e' => ∃ o, e.obj = some (.mcParticle o) ∧ e' = ⟨T e.addr, some (.mcParticle (keptMCParticle std T o))⟩)
      c.2.elems c'.2.elems := by
  have hk : kindD c.2 = .mcParticle := by
    unfold Spec.isMC at hm
    rw [Bool.and_eq_true] at hm
    exact (kind_mc c.2.type _ hc.kind).1 hm.1
  have hs : c.2.flag.getLsbD 18 = false := by
    unfold Spec.isMC at hm
    rw [Bool.and_eq_true, Bool.not_eq_true'] at hm
    exact hm.2
  refine ⟨h.2.elems.1, ?_⟩
  intro i a b ha hb
  have hab := h.2.elems.2 i a b ha hb
  unfold LoadedElem at hab
  rw [if_neg (by rw [h.flag18 hc, hs]; exact Bool.false_ne_true), hk] at hab
  obtain ⟨⟨o, ho, ho'⟩, haddr⟩ := hab
  obtain ⟨o2, ho2, hok⟩ := hc.objects hs a (List.mem_of_getElem? ha)
  rw [ho] at ho2
  cases ho2
  rw [hk] at hok
  cases o <;> simp only [ObjOk] at hok
  rename_i o
  refine ⟨o, ho, ?_⟩
  rw [← haddr rfl]
  obtain ⟨ba, bo⟩ := b
  simp only at ho'
  rw [ho']; rfl

theorem kept_particle (std : Std Pid) (flag : W32) (f : Nat → Nat) (ids : List Nat) (k : Kind) (o : Obj) (h : ObjOk k o) (hk : k ≠ .mcParticle) (a : Nat) :
    Elem.particle ⟨a, some (keptObj std flag f ids o)⟩ = none := by
  cases o <;> try rfl
  cases k <;> simp only [ObjOk] at h
  exact absurd rfl hk

theorem LoadedAs.not_mc {std : Std Pid} {T : Nat → Nat} {c c' : Str × Collection} (h : LoadedAs std T c c') (hc : CollectionOk std (kindD c.2) c.2)
    (hm : Spec.isMC c = false) : ∀ e ∈ c'.2.elems, e.particle = none := by
  intro e' he'
  obtain ⟨i, hi⟩ := List.getElem?_of_mem he'
  have hlt : i < c.2.elems.length := by rw [h.2.elems.1]; exact (List.getElem?_eq_some_iff.1 hi).1
  have hab := h.2.elems.2 i _ e' (List.getElem?_eq_getElem hlt) hi
  unfold LoadedElem at hab
  rw [h.flag18 hc] at hab
  cases hs : c.2.flag.getLsbD 18
  · rw [hs, if_neg Bool.false_ne_true] at hab
    obtain ⟨⟨o, ho, ho'⟩, _⟩ := hab
    obtain ⟨o2, ho2, hok⟩ := hc.objects hs _ (List.getElem_mem hlt)
    rw [ho] at ho2
    cases ho2
    have hk : kindD c.2 ≠ .mcParticle := by
      intro hk
      unfold Spec.isMC at hm
      rw [(kind_mc c.2.type _ hc.kind).2 hk, hs] at hm
      cases hm
    obtain ⟨ba, bo⟩ := e'
    simp only at ho'
    rw [ho']
    exact kept_particle _ _ _ _ _ _ hok hk _
  · rw [hs, if_pos rfl] at hab
    rw [hab]; rfl

section
variable {std : Std Pid} {T : Nat → Nat} {W L : List (Str × Collection)}

theorem mcAddrs_loaded (h : All2 (LoadedAs std T) W L) (hc : ∀ c ∈ W, CollectionOk std (kindD c.2) c.2) : mcAddrs L = (mcAddrs W).map T := by
  unfold mcAddrs
  rw [List.map_flatMap]
  apply h.flatMap_eq
  intro a ha b hb hab
  rw [hab.isMC (hc a ha)]
  cases hm : isMC a
  · rfl
  · simp only [if_true, List.map_map]
    apply (hab.mc_elem (hc a ha) hm).map_eq
    rintro x _ y _ ⟨o, _, rfl⟩
    rfl

theorem childrenOf_loaded (S : List Nat) (hinj : ∀ a ∈ S, ∀ b ∈ S, T a = T b → a = b) {c c' : Str × Collection} (h : LoadedAs std T c c')
    (hc : CollectionOk std (kindD c.2) c.2) (hm : isMC c = true) (hp : ∀ e ∈ c.2.elems, ∀ p ∈ parentsOf e, p ∈ S) (x : Nat) (hx : x ∈ S) :
    childrenOf c'.2.elems (T x) = (childrenOf c.2.elems x).map T := by
  unfold childrenOf
  rw [List.map_flatMap]
  apply (h.mc_elem hc hm).flatMap_eq
  rintro e he e' _ ⟨o, ho, rfl⟩
  have hpe : parentsOf e = o.parents := by unfold parentsOf; rw [ho]
  have hpe' : parentsOf ⟨T e.addr, some (.mcParticle (keptMCParticle std T o))⟩ = o.parents.map T := rfl
  rw [hpe, hpe', List.filter_map, List.map_map, List.map_map]
  have : (o.parents.filter ((fun y => y == T x) ∘ T)) = o.parents.filter (· == x) := by
    apply List.filter_congr
    intro p hpp
    have hpS := hp e he p (by rw [hpe]; exact hpp)
    simp only [Function.comp]
    by_cases hpx : p = x
    · subst hpx; simp
    · have : T p ≠ T x := fun e => hpx (hinj p hpS x hx e)
      rw [beq_false_of_ne hpx, beq_false_of_ne this]
  rw [this]
  rfl

theorem kids_loaded (S : List Nat) (hinj : ∀ a ∈ S, ∀ b ∈ S, T a = T b → a = b) (h : All2 (LoadedAs std T) W L)
    (hc : ∀ c ∈ W, CollectionOk std (kindD c.2) c.2) (hp : ∀ e ∈ mcElems W, ∀ p ∈ parentsOf e, p ∈ S) (x : Nat) (hx : x ∈ S) :
    kids L (T x) = (childrenOf (mcElems W) x).map T := by
  have h1 : childrenOf (mcElems W) x = kids W x := by
    unfold childrenOf mcElems kids
    rw [List.flatMap_assoc]
    congr 1
    funext c
    split
    · rfl
    · rfl
  rw [h1]
  unfold kids
  rw [List.map_flatMap]
  apply h.flatMap_eq
  intro a ha b hb hab
  rw [hab.isMC (hc a ha)]
  cases hm : isMC a
  · rfl
  · simp only [if_true]
    exact childrenOf_loaded S hinj hab (hc a ha) hm (fun e he => hp e (mem_mcElems.2 ⟨a, ha, hm, he⟩)) x hx

theorem mcAddrs_tagged (hc : ∀ c ∈ W, CollectionOk std (kindD c.2) c.2) : (mcAddrs W).Sublist (allTagged W) := by
  unfold mcAddrs allTagged
  induction W with
  | nil => exact List.Sublist.refl _
  | cons c W ih =>
    rw [List.flatMap_cons, List.flatMap_cons]
    refine List.Sublist.append ?_ (ih fun x hx => hc x (by simp [hx]))
    cases hm : isMC c
    · simp
    · simp only [if_true]
      unfold isMC at hm
      rw [Bool.and_eq_true, Bool.not_eq_true'] at hm
      unfold tagged
      have hcc := hc c (by simp)
      rw [if_neg (by rw [hm.2]; exact Bool.false_ne_true), (kind_mc c.2.type _ hcc.kind).1 hm.1]
      have : (c.2.elems.map (·.addr)) = c.2.elems.flatMap fun e => [e.addr] := by
        rw [List.flatMap_def]; induction c.2.elems with
        | nil => rfl
        | cons e es ih => simp only [List.map_cons, List.flatten_cons, ← ih]; rfl
      rw [this]
      induction c.2.elems with
      | nil => exact List.Sublist.refl _
      | cons e es ih =>
        rw [List.flatMap_cons, List.flatMap_cons]
        refine List.Sublist.append ?_ ?_
        · exact List.sublist_append_right _ _
        · exact ih

theorem nodup_map_of_inj {T : Nat → Nat} (l : List Nat) (h : l.Nodup) (hinj : ∀ a ∈ l, ∀ b ∈ l, T a = T b → a = b) : (l.map T).Nodup := by
  induction l with
  | nil => exact List.nodup_nil
  | cons x l ih =>
    rw [List.nodup_cons] at h
    rw [List.map_cons, List.nodup_cons]
    refine ⟨?_, ih h.2 fun a ha b hb => hinj a (by simp [ha]) b (by simp [hb])⟩
    intro hx
    obtain ⟨y, hy, hxy⟩ := List.mem_map.1 hx
    have := hinj y (by simp [hy]) x (by simp) hxy
    exact h.1 (this ▸ hy)

theorem loaded_fit (h : All2 (LoadedAs std T) W L) (hc : ∀ c ∈ W, CollectionOk std (kindD c.2) c.2) (hT : Pointers W T) (hnd : (allTagged W).Nodup)
    (hp : ParentsEarlier W) : Fit L := by
  have hsub := mcAddrs_tagged hc
  refine ⟨?_, ?_, ?_, ?_⟩
  · intro c' hc' hm e' he'
    obtain ⟨c, hcW, hcc⟩ := h.mem_right hc'
    rw [hcc.isMC (hc c hcW)] at hm
    obtain ⟨e, _, o, _, rfl⟩ := (hcc.mc_elem (hc c hcW) hm).mem_right he'
    exact ⟨_, rfl⟩
  · intro c' hc' hm e' he'
    obtain ⟨c, hcW, hcc⟩ := h.mem_right hc'
    rw [hcc.isMC (hc c hcW)] at hm
    exact hcc.not_mc (hc c hcW) hm e' he'
  · rw [mcAddrs_loaded h hc]
    exact nodup_map_of_inj _ (hnd.sublist hsub) fun a ha b hb => hT.distinct a (hsub.subset ha) b (hsub.subset hb)
  · intro pre' c' post' hL hm e' he' p' hp'
    subst hL
    obtain ⟨pre, c, post, hW, h1, h2, h3⟩ := h.split
    have hcc := hc c (by rw [hW]; simp)
    rw [h2.isMC hcc] at hm
    obtain ⟨e, he, o, ho, rfl⟩ := (h2.mc_elem hcc hm).mem_right he'
    have hpp : p' ∈ (parentsOf e).map T := by
      unfold parentsOf; rw [ho]; exact hp'
    obtain ⟨p, hpe, rfl⟩ := List.mem_map.1 hpp
    have := hp pre c post hW hm e he p hpe
    have h4 : All2 (LoadedAs std T) (pre ++ [c]) (pre' ++ [c']) := by
      clear hp hT hnd hsub he' hp' this hpp hpe hc h hW h3
      induction pre generalizing pre' with
      | nil => rw [h1.nil_inv]; exact All2.cons h2 (All2.nil _)
      | cons x pre ih =>
        obtain ⟨b, t, rfl, h5, h6⟩ := h1.cons_inv
        exact All2.cons h5 (ih _ h6)
    rw [mcAddrs_loaded h4 (fun x hx => hc x (by rw [hW]; simp at hx ⊢; rcases hx with h | h <;> simp [h]))]
    exact List.mem_map_of_mem this

theorem loaded_daughters (h : All2 (LoadedAs std T) W L) (hc : ∀ c ∈ W, CollectionOk std (kindD c.2) c.2) : ∀ e ∈ allElems L, daughtersOf e = [] := by
  intro e' he'
  obtain ⟨c', hc', he'⟩ := List.mem_flatMap.1 he'
  obtain ⟨c, hcW, hcc⟩ := h.mem_right hc'
  cases hm : isMC c
  · have := hcc.not_mc (hc c hcW) hm e' he'
    unfold Elem.particle at this
    unfold daughtersOf
    cases ho : e'.obj with
    | none => rfl
    | some o =>
      rw [ho] at this
      cases o <;> first | rfl | cases this
  · obtain ⟨e, _, o, _, rfl⟩ := (hcc.mc_elem (hc c hcW) hm).mem_right he'
    rfl

theorem subsets_ok (h : All2 (LoadedAs std T) W L) (hc : ∀ c ∈ W, CollectionOk std (kindD c.2) c.2) (hT : Pointers W T) (hs : SubsetsInside W)
    (D : Nat → List Nat) : (withDaughters D L).any (fun c => c.2.flag.getLsbD 18 && c.2.elems.any (·.addr == 0)) = false := by
  unfold withDaughters
  rw [List.any_map, List.any_eq_false]
  intro c' hc'
  obtain ⟨c, hcW, hcc⟩ := h.mem_right hc'
  simp only [Function.comp]
  cases h18 : c'.2.flag.getLsbD 18
  · exact Bool.false_ne_true
  · rw [Bool.true_and, List.any_map, Bool.not_eq_true, List.any_eq_false]
    intro e' he'
    have h18' := h18
    rw [hcc.flag18 (hc c hcW)] at h18'
    obtain ⟨e, he, hab⟩ := hcc.2.elems.mem_right he'
    unfold LoadedElem at hab
    rw [if_pos h18] at hab
    simp only [Function.comp, withD_addr, hab, beq_iff_eq]
    exact hT.nonNull _ (hs c hcW h18' e he)

theorem filled_eq (heads : List (Str × ColHead)) (W L : List (Str × Collection)) (hn : (W.map (·.1)).Nodup) (hL : L.map (·.1) = W.map (·.1))
    (hh : heads.map (fun c => (c.1, c.2.type)) = W.map (fun c => (c.1, c.2.type))) : filledCols heads L = L := by
  have hheads : heads.map (·.1) = L.map (·.1) := by
    have := congrArg (List.map Prod.fst) hh
    rw [List.map_map, List.map_map] at this
    rw [hL]; exact this
  have hnL : (L.map (·.1)).Nodup := by rw [hL]; exact hn
  clear hh hL hn
  unfold filledCols
  have key : ∀ M : List (Str × Collection), (∀ r ∈ M, r ∈ L) → ∀ hs : List (Str × ColHead), hs.map (·.1) = M.map (·.1) →
      hs.map (fun h => (h.1, match L.find? fun r => r.1 == h.1 with | some r => r.2 | none => { type := h.2.type })) = M := by
    intro M
    induction M with
    | nil => intro _ hs hhs; rw [List.map_nil, List.map_eq_nil_iff] at hhs; subst hhs; rfl
    | cons m M ih =>
      intro hM hs hhs
      cases hs with
      | nil => cases hhs
      | cons y ys =>
        simp only [List.map_cons, List.cons.injEq] at hhs
        rw [List.map_cons, ih (fun r hr => hM r (by simp [hr])) ys hhs.2]
        congr 1
        have hf : L.find? (fun r => r.1 == y.1) = some m := by
          rw [hhs.1]
          have hm := hM m (by simp)
          clear ih hM hheads hhs
          induction L with
          | nil => cases hm
          | cons z L ih =>
            rw [List.map_cons, List.nodup_cons] at hnL
            rcases List.mem_cons.1 hm with rfl | hm
            · simp
            · have : z.1 ≠ m.1 := fun e => hnL.1 (e ▸ List.mem_map_of_mem (f := (·.1)) hm)
              rw [List.find?_cons_of_neg (by simpa using this)]
              exact ih hnL.2 hm
        rw [hf, hhs.1]
  exact key L (fun r hr => hr) heads hheads

end

/-! ### Final collections -/

theorem _root_.Spec.All2.mapRight {α β γ : Type} {R : α → β → Prop} {S : α → γ → Prop} {l : List α} {l' : List β} (h : All2 R l l') (g : β → γ)
    (hR : ∀ a ∈ l, ∀ b ∈ l', R a b → S a (g b)) : All2 S l (l'.map g) := by
  refine ⟨by rw [List.length_map]; exact h.1, ?_⟩
  intro i a c ha hc
  rw [List.getElem?_map, Option.map_eq_some_iff] at hc
  obtain ⟨b, hb, rfl⟩ := hc
  exact hR a (List.mem_of_getElem? ha) b (List.mem_of_getElem? hb) (h.2 i a b ha hb)

theorem _root_.Spec.All2.mono {α β : Type} {R S : α → β → Prop} {l : List α} {l' : List β} (h : All2 R l l')
    (hR : ∀ a ∈ l, ∀ b ∈ l', R a b → S a b) : All2 S l l' := by
  have := h.mapRight (S := S) id hR
  rwa [List.map_id] at this

theorem written_flag (std : Std Pid) (k : Kind) (c : Collection) (h : CollectionOk std k c) (hk : k ≠ .generic) : (c.written std).flag = c.flag := by
  obtain ⟨ctx, c', hp⟩ := prepare_ok std k c h.access h.vertices h.generic
  rw [written_eq std k c ctx c' h.kind hp]
  have := hp.eq
  cases k
  case generic => exact absurd rfl hk
  case vertex =>
    simp only [Collection.prepare, bind, Except.bind, pure, Except.pure] at this
    split at this
    · cases this
    · split at this
      · cases this
      · cases this; rfl
  all_goals
    simp only [Collection.prepare] at this
    cases this; rfl

/-- The element that is in the event in the end. -/
theorem final_elem {std : Std Pid} {T : Nat → Nat} {c c' : Str × Collection} (h : LoadedAs std T c c') (hc : CollectionOk std (kindD c.2) c.2)
    (hs : c.2.flag.getLsbD 18 = false) (e e' : Elem) (he : e ∈ c.2.elems) (hee : LoadedElem std c'.2.flag (kindD c.2) T e e') (o : Obj) (ho : e.obj = some o) :
    ObjOk (kindD c.2) o ∧ e'.obj = some (keptObj std c'.2.flag T ((pidsOf o).map fun p => T p.addr) o) ∧
      (canPointAt c.2.flag (kindD c.2) = true → e'.addr = T e.addr) ∧ (kindD c.2 ≠ .generic → c'.2.flag = c.2.flag) := by
  unfold LoadedElem at hee
  rw [if_neg (by rw [h.flag18 hc, hs]; exact Bool.false_ne_true)] at hee
  obtain ⟨⟨o1, h1, h2⟩, h3⟩ := hee
  rw [ho, Option.some.injEq] at h1
  subst h1
  obtain ⟨o2, h4, h5⟩ := hc.objects hs e he
  rw [ho, Option.some.injEq] at h4
  subst h4
  refine ⟨h5, h2, ?_, ?_⟩
  · intro hp
    apply h3
    rw [canPointAt_congr _ c.2.flag]
    · exact hp
    · intro i hi
      rw [h.2.flag, written_bits std _ c.2 hc i hi]
  · intro hk
    rw [h.2.flag, written_flag std _ c.2 hc hk]

theorem withD_obj (D : Nat → List Nat) (e : Elem) (h : e.particle = none) : Elem.withD D e = e := by
  obtain ⟨a, o⟩ := e
  unfold Elem.withD
  unfold Elem.particle at h
  cases o with
  | none => rfl
  | some o => cases o <;> first | rfl | cases h

theorem defaultParam_keep (p p' : Params) (key : Str) (g : Option Generic) (val : Generic → Str) (h : defaultParam p key g val = .ok p') :
    p'.ints = p.ints ∧ p'.floats = p.floats ∧
      ∀ key', key' ≠ key ∨ (∃ v vs, omFind strLt key' p.strs = some (v :: vs) ∧ v ≠ []) → omFind strLt key' p'.strs = omFind strLt key' p.strs := by
  unfold defaultParam at h
  cases hv : getVal [] p.strs key with
  | error e => rw [hv] at h; cases h
  | ok old =>
    rw [hv] at h
    cases g with
    | none => cases h; exact ⟨rfl, rfl, fun _ _ => rfl⟩
    | some o =>
      simp only [bind, Except.bind] at h
      split at h
      · rename_i hold
        unfold Params.setStr Params.checked at h
        split at h
        · cases h
        · cases h
          refine ⟨rfl, rfl, fun key' hk => ?_⟩
          simp only [omFind_assignVal]
          split
          · rename_i e
            exfalso
            rcases hk with hk | ⟨v, vs, hf, hne⟩
            · exact hk e
            · subst e
              unfold getVal at hv
              rw [hf] at hv
              cases hv
              exact hne (List.isEmpty_iff.1 hold)
          · rfl
      · cases h; exact ⟨rfl, rfl, fun _ _ => rfl⟩

theorem keptHead_written (std : Std Pid) (c : Collection) (h : CollectionOk std (kindD c) c) : KeptHead c (c.written std) := by
  suffices hsuff : (c.written std).params.ints = c.params.ints ∧ (c.written std).params.floats = c.params.floats ∧
      (kindD c ≠ .vertex → kindD c ≠ .generic → (c.written std).params.strs = c.params.strs) ∧
      (kindD c = .vertex → ∀ key, key ≠ str "_lcio.VertexAlgorithmTypes" → omFind strLt key (c.written std).params.strs = omFind strLt key c.params.strs) ∧
      (kindD c = .generic → ∀ key,
        (key ≠ str "TypeName" ∧ key ≠ str "DataDescription") ∨ (∃ v vs, omFind strLt key c.params.strs = some (v :: vs) ∧ v ≠ []) →
        omFind strLt key (c.written std).params.strs = omFind strLt key c.params.strs) from
    ⟨fun hk => written_flag std _ c h hk, written_bits std _ c h, hsuff.1, hsuff.2.1, hsuff.2.2.1, hsuff.2.2.2.1, hsuff.2.2.2.2⟩
  obtain ⟨ctx, c', hp⟩ := prepare_ok std _ c h.access h.vertices h.generic
  rw [written_eq std _ c ctx c' h.kind hp]
  have := hp.eq
  clear hp
  generalize kindD c = k at *
  by_cases h1 : k = .vertex
  · subst h1
    simp only [Collection.prepare, bind, Except.bind, pure, Except.pure] at this
    split at this
    · cases this
    · rename_i algs _
      unfold Params.setStrs Params.checked at this
      rw [h.access] at this
      cases this
      refine ⟨rfl, rfl, fun h => absurd rfl h, fun _ key hk => ?_, fun h => by cases h⟩
      simp only [assignVals]
      rw [omFind_assign strWeak, if_neg]
      intro e
      exact hk ((eqv_str _ _).1 e).symm
  · by_cases h2 : k = .generic
    · subst h2
      simp only [Collection.prepare, bind, Except.bind, pure, Except.pure] at this
      cases hfa : allFixed c.elems with
      | error e => rw [hfa] at this; cases this
      | ok fixed =>
        rw [hfa] at this
        simp only at this
        cases hp1 : defaultParam c.params (str "TypeName") (firstGeneric c.elems) (·.typeName) with
        | error e => rw [hp1] at this; cases this
        | ok p1 =>
          rw [hp1] at this
          simp only at this
          obtain ⟨a1, a2, a3⟩ := defaultParam_keep _ _ _ _ _ hp1
          have key : ∃ p2, c'.params = p2 ∧ (p2 = p1 ∨ defaultParam p1 (str "DataDescription") (firstGeneric c.elems) (·.descr) = .ok p2) := by
            cases fixed
            · simp only [Bool.false_eq_true, if_false, Except.ok.injEq, Prod.mk.injEq] at this
              exact ⟨p1, by rw [← this.2], Or.inl rfl⟩
            · simp only [if_true] at this
              split at this
              · cases this
              · rename_i p2 hp2
                cases this
                exact ⟨p2, rfl, Or.inr hp2⟩
          obtain ⟨p2, e2, hp2⟩ := key
          rw [e2]
          rcases hp2 with rfl | hp2
          · refine ⟨a1, a2, fun _ h => absurd rfl h, fun h => (by cases h), fun _ key hk => a3 key ?_⟩
            rcases hk with hk | hk
            · exact Or.inl hk.1
            · exact Or.inr hk
          · obtain ⟨b1, b2, b3⟩ := defaultParam_keep _ _ _ _ _ hp2
            refine ⟨b1.trans a1, b2.trans a2, fun _ h => absurd rfl h, fun h => (by cases h), fun _ key hk => ?_⟩
            have h4 : omFind strLt key p1.strs = omFind strLt key c.params.strs := by
              apply a3
              rcases hk with hk | hk
              · exact Or.inl hk.1
              · exact Or.inr hk
            rw [← h4]
            apply b3
            rcases hk with hk | hk
            · exact Or.inl hk.2
            · rw [h4]; exact Or.inr hk
    · have hc : c' = c := by
        cases k <;> first | exact absurd rfl h1 | exact absurd rfl h2 | (simp only [Collection.prepare] at this; cases this; rfl)
      subst hc
      exact ⟨rfl, rfl, fun _ _ => rfl, fun h => absurd h h1, fun h => absurd h h2⟩

end Lcio
