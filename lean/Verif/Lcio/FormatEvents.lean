import Verif.Lcio.FormatCollections
import Verif.Lcio.EventProofs
/-
Event records that follow the description of the file format.
-/
namespace Lcio
open Sio Spec

/-! ### What can be pointed at -/

theorem seeAllRegs_fst (std : Std Pid) (v : Nat) (k : Kind) (c : Collection) (n : Nat) (es : List Elem) (h : ∀ e ∈ es, e.obj ≠ none) :
    (seeAllRegs std v k c n es).map (·.1) =
      es.flatMap fun e => (match e.obj with | some o => (pidsOf o).map (·.addr) | none => []) ++ if present std v k c e "this" then [e.addr] else [] := by
  induction es generalizing n with
  | nil => rfl
  | cons e es ih =>
    simp only [seeAllRegs, List.map_append, List.flatMap_cons, ih _ (fun x hx => h x (by simp [hx]))]
    congr 1
    obtain ⟨o, ho⟩ := Option.ne_none_iff_exists'.1 (h e (by simp))
    simp only [seeRegs, ho, docRegs, List.map_append, pidRegs_fst]
    congr 1
    split <;> rfl

theorem _root_.Spec.DocColOk.objs {v : Nat} {k : Kind} {c : Collection} (h : DocColOk v k c) (hs : c.flag.getLsbD 18 = false) :
    ∀ e ∈ c.elems, e.obj ≠ none := by
  intro e he
  obtain ⟨o, ho, _⟩ := h.objects hs e he
  rw [ho]; simp

theorem kindD_of {c : Collection} {k : Kind} (h : kindOf c.type = some k) : kindD c = k := by
  unfold kindD; rw [h]; rfl

theorem seeColRegs_fst (std : Std Pid) (v : Nat) (k : Kind) (n : Nat) (c : Collection) (h : DocColOk v k c) :
    (seeColRegs std v n c).map (·.1) = docTagged std v k c := by
  unfold seeColRegs docTagged
  rw [kindD_of h.kind]
  cases hs : c.flag.getLsbD 18
  · rw [if_neg (by simp), if_neg (by simp)]
    exact seeAllRegs_fst std v k c n c.elems (h.objs hs)
  · rw [if_pos rfl, if_pos rfl]; rfl

theorem tags_doc (std : Std Pid) (vers : W32) (v : Nat) (hv : Vers vers v) (h8 : 8 ≤ v) (k : Kind) (c : Collection) (h : DocColOk v k c) :
    tagsOf (docCollection std v k c) = docTagged std v k c := by
  have := collectionReads std vers v hv h8 k c h id [] 0 []
  obtain ⟨new, h1, h2⟩ := runF_tags _ _ _ _ _ this
  simp only [List.nil_append, List.append_nil, tagsOf_flat] at h1 h2
  rw [h2, ← h1, seeColRegs_fst std v k 0 c h]
  simp [tagsOf]

theorem seeRegs_fresh (std : Std Pid) (v : Nat) (k : Kind) (c : Collection) (n : Nat) (e : Elem) :
    Fresh n (elemNews e) ((seeRegs std v k c n e).map (·.2)) := by
  unfold seeRegs elemNews
  cases e.obj with
  | none => exact ⟨by simp, by simp⟩
  | some o =>
    simp only [docRegs, List.map_append]
    have hp : (pidRegs (n + 1) (pidsOf o)).map (·.2) = List.range' (n + 1) (pidsOf o).length := by
      unfold pidRegs; rw [List.map_snd_zip]; simp
    rw [hp]
    refine ⟨List.nodup_append.2 ⟨List.nodup_range', by split <;> simp, ?_⟩, ?_⟩
    · intro x hx y hy he
      rw [List.mem_range'_1] at hx
      split at hy
      · simp only [List.map_cons, List.map_nil, List.mem_singleton] at hy; omega
      · cases hy
    · intro i hi
      rcases List.mem_append.1 hi with hi | hi
      · rw [List.mem_range'_1] at hi; omega
      · split at hi
        · simp only [List.map_cons, List.map_nil, List.mem_singleton] at hi; omega
        · cases hi

theorem seeAllRegs_fresh (std : Std Pid) (v : Nat) (k : Kind) (c : Collection) (n : Nat) (es : List Elem) :
    Fresh n (elemsNews es) ((seeAllRegs std v k c n es).map (·.2)) := by
  induction es generalizing n with
  | nil => exact ⟨List.nodup_nil, by simp [seeAllRegs]⟩
  | cons e es ih =>
    simp only [seeAllRegs, elemsNews, List.map_append]
    exact (seeRegs_fresh std v k c n e).append (ih _)

theorem seeColRegs_fresh (std : Std Pid) (v : Nat) (n : Nat) (c : Collection) : Fresh n (colNews c) ((seeColRegs std v n c).map (·.2)) := by
  unfold seeColRegs colNews
  split
  · exact ⟨by simp, by simp⟩
  · exact seeAllRegs_fresh std v _ _ _ _

/-! ### Setting pointers -/

theorem mapPtr_seen (std : Std Pid) (flag : W32) (has hasC : String → Bool) (f g : Nat → Nat) (hg : g 0 = 0) (ids : List Nat) (o : Obj) :
    (seenObj std flag has hasC f ids o).mapPtr g = seenObj std flag has hasC (fun a => g (f a)) ids o := by
  cases o <;> simp only [seenObj, Obj.mapPtr]
  case mcParticle o => simp [MCParticle.mapPtr, seenMCParticle]
  case simCalHit o => simp [SimCalHit.mapPtr, seenSimCalHit, seenSimCont, SimCont.mapPtr]
  case calHit o => simp only [CalHit.mapPtr, seenCalHit]; cases has "rawHit" <;> simp [given, hg]
  case simTrackerHit o => simp [SimTrackerHit.mapPtr, seenSimTrackerHit]
  case trackerPulse o => simp [TrackerPulse.mapPtr, seenTrackerPulse]
  case trackerHit o => simp only [TrackerHit.mapPtr, seenTrackerHit]; cases has "nRawHits" <;> simp [given]
  case trackerHitPlane o => simp [TrackerHitPlane.mapPtr, seenTrackerHitPlane]
  case trackerHitZCylinder o => simp [TrackerHitZCylinder.mapPtr, seenTrackerHitZCylinder]
  case track o => simp only [Track.mapPtr, seenTrack]; cases has "n" <;> simp [given]
  case cluster o => simp only [Cluster.mapPtr, seenCluster]; cases has "n" <;> simp [given]
  case recoParticle o => simp only [RecoParticle.mapPtr, seenRecoParticle]; cases has "startVertex" <;> simp [given, hg]
  case relation o => simp [Relation.mapPtr, seenRelation]
  case vertex o => simp [Vertex.mapPtr]

theorem mapPtr_seeElems (std : Std Pid) (v : Nat) (k : Kind) (c : Collection) (f g : Nat → Nat) (hg : g 0 = 0) (n : Nat) (es : List Elem)
    (h : ∀ e ∈ es, e.obj ≠ none) : (seeElems std v k c f n es).map (·.mapPtr g) = seeElems std v k c (fun a => g (f a)) n es := by
  induction es generalizing n with
  | nil => rfl
  | cons e es ih =>
    simp only [seeElems, List.map_cons, ih _ (fun x hx => h x (by simp [hx]))]
    congr 1
    obtain ⟨o, ho⟩ := Option.ne_none_iff_exists'.1 (h e (by simp))
    simp only [seeElem, ho, Option.map_some, Elem.mapPtr, mapPtr_seen _ _ _ _ _ _ hg]

theorem mapPtr_seeCol (std : Std Pid) (v : Nat) (k : Kind) (f g : Nat → Nat) (hg : g 0 = 0) (n : Nat) (c : Collection) (h : DocColOk v k c) :
    (seeCol std v f n c).mapPtr g = seeCol std v (fun a => g (f a)) n c := by
  simp only [seeCol, Collection.mapPtr]
  congr 1
  split
  · simp [Elem.mapPtr]
  · rename_i hs
    rw [Bool.not_eq_true] at hs
    exact mapPtr_seeElems std v _ c f g hg n _ (h.objs hs)

theorem seeCol_congr (std : Std Pid) (vers : W32) (v : Nat) (hv : Vers vers v) (h8 : 8 ≤ v) (k : Kind) (f g : Nat → Nat) (n : Nat) (c : Collection)
    (h : DocColOk v k c) (hfg : ∀ a ∈ ptrsOf (docCollection std v k c), f a = g a) : seeCol std v f n c = seeCol std v g n c := by
  have h1 := collectionReads std vers v hv h8 k c h f [] n []
  rw [runF_congr f g _ _ (by simpa [ptrsOf_flat] using hfg), collectionReads std vers v hv h8 k c h g [] n []] at h1
  simp only [Option.some.injEq, Prod.mk.injEq] at h1
  exact h1.1.symm

theorem seeElems_ok (std : Std Pid) (v : Nat) (k : Kind) (c : Collection) (T : Nat → Nat) (n : Nat) (es : List Elem) (hs : c.flag.getLsbD 18 = false)
    (hobj : ∀ e ∈ es, e.obj ≠ none) (h : ∀ x ∈ seeAllRegs std v k c n es, T x.1 = x.2) :
    All2 (SeenElem std v k c T) es (seeElems std v k c T n es) := by
  induction es generalizing n with
  | nil => exact All2.nil _
  | cons e es ih =>
    simp only [seeAllRegs, List.mem_append] at h
    refine All2.cons ?_ (ih _ (fun x hx => hobj x (by simp [hx])) fun x hx => h x (Or.inr hx))
    obtain ⟨o, ho⟩ := Option.ne_none_iff_exists'.1 (hobj e (by simp))
    have he : ∀ x ∈ seeRegs std v k c n e, T x.1 = x.2 := fun x hx => h x (Or.inl hx)
    simp only [seeRegs, ho, docRegs, List.mem_append] at he
    unfold SeenElem
    rw [if_neg (by rw [hs]; exact Bool.false_ne_true)]
    refine ⟨⟨o, ho, ?_⟩, ?_⟩
    · simp only [seeElem, ho, Option.map_some]
      rw [map_zip_range T (pidsOf o) (n + 1) fun x hx => he x (Or.inl hx)]
    · intro hc
      exact (he (e.addr, n) (Or.inr (by rw [if_pos hc]; simp))).symm

theorem seeCol_ok (std : Std Pid) (v : Nat) (k : Kind) (T : Nat → Nat) (n : Nat) (c : Collection) (hc : DocColOk v k c)
    (h : ∀ x ∈ seeColRegs std v n c, T x.1 = x.2) : SeenCol std v k T c (seeCol std v T n c) := by
  refine ⟨rfl, rfl, rfl, ?_⟩
  simp only [seeCol]
  unfold seeColRegs at h
  split
  · rename_i hs
    refine ⟨by simp, ?_⟩
    intro i a b ha hb'
    unfold SeenElem
    rw [if_pos hs]
    rw [List.getElem?_map, ha] at hb'
    simpa using hb'.symm
  · rename_i hs
    rw [if_neg hs] at h
    rw [Bool.not_eq_true] at hs
    rw [kindD_of hc.kind] at h ⊢
    exact seeElems_ok std v k c T n _ hs (hc.objs hs) h

/-! ### The event -/

/-- The results of reading the collections `cs` of which some are wanted. -/
def seeCols (std : Std Pid) (v : Nat) (want : Str → Bool) (φ : Nat → Nat) : Nat → List (Str × Collection) → List (Str × Collection)
  | _, [] => []
  | n, c :: cs => if want c.1 then (c.1, seeCol std v φ n c.2) :: seeCols std v want φ (n + colNews c.2) cs else seeCols std v want φ n cs
/-- The objects that can be pointed at. -/
def seeObjs (std : Std Pid) (v : Nat) (want : Str → Bool) : Nat → List (Str × Collection) → List (Nat × Option Nat)
  | _, [] => []
  | n, c :: cs =>
    if want c.1 then (seeColRegs std v n c.2).map (fun x => (x.1, some x.2)) ++ seeObjs std v want (n + colNews c.2) cs
    else (docTagged std v (kindD c.2) c.2).map (·, none) ++ seeObjs std v want n cs

theorem decodeF_doc (std : Std Pid) (vers : W32) (v : Nat) (hv : Vers vers v) (h8 : 8 ≤ v) (want : Str → Bool) (decs : List (RBlock Collection))
    (φ : Nat → Nat) (cs : List (Str × Collection)) (n : Nat) (hok : ∀ c ∈ cs, DocColOk v (kindD c.2) c.2)
    (hd : ∀ c ∈ cs, decs.find? (fun d => d.name == c.1) = if want c.1 then some ⟨c.1, Collection.read std c.2.type⟩ else none) :
    ∃ slots, decodeF φ decs (docBlocks std vers v cs) n = some ⟨seeCols std v want φ n cs, n + evNews want cs, seeObjs std v want n cs, slots⟩ := by
  unfold docBlocks
  induction cs generalizing n with
  | nil => exact ⟨[], rfl⟩
  | cons c cs ih =>
    have hc := hok c (by simp)
    have hdc := hd c (by simp)
    simp only [List.map_cons, decodeF]
    rw [hdc]
    by_cases hw : want c.1 = true
    · obtain ⟨slots, ih⟩ := ih (n + colNews c.2) (fun x hx => hok x (by simp [hx])) (fun x hx => hd x (by simp [hx]))
      rw [if_pos hw]
      have hl := collectionReads std vers v hv h8 (kindD c.2) c.2 hc φ [] n []
      simp only [List.append_nil, List.nil_append] at hl
      simp only [hl, ih, Option.map_some, seeCols, evNews, seeObjs, hw, if_true, tagsOf, List.filterMap_nil, List.map_nil, List.append_nil, Nat.add_assoc]
      exact ⟨_, rfl⟩
    · obtain ⟨slots, ih⟩ := ih n (fun x hx => hok x (by simp [hx])) (fun x hx => hd x (by simp [hx]))
      rw [if_neg hw]
      simp only [ih, Option.map_some, seeCols, evNews, seeObjs, hw, if_false, tags_doc std vers v hv h8 _ _ hc, Nat.zero_add, Bool.false_eq_true]
      exact ⟨_, rfl⟩

theorem seeObjs_fst (std : Std Pid) (v : Nat) (want : Str → Bool) (n : Nat) (cs : List (Str × Collection))
    (hok : ∀ c ∈ cs, DocColOk v (kindD c.2) c.2) : (seeObjs std v want n cs).map (·.1) = docAddresses std v cs := by
  unfold docAddresses
  induction cs generalizing n with
  | nil => rfl
  | cons c cs ih =>
    have hc := hok c (by simp)
    simp only [seeObjs, List.flatMap_cons]
    split
    · rw [List.map_append, ih _ (fun x hx => hok x (by simp [hx])), List.map_map]
      congr 1
      exact seeColRegs_fst std v _ _ _ hc
    · rw [List.map_append, ih _ (fun x hx => hok x (by simp [hx])), List.map_map]
      congr 1
      exact List.map_id _

theorem seeObjs_wanted (std : Std Pid) (v : Nat) (want : Str → Bool) (n : Nat) (cs : List (Str × Collection))
    (hok : ∀ c ∈ cs, DocColOk v (kindD c.2) c.2) (a : Nat) :
    (∃ i, (a, some i) ∈ seeObjs std v want n cs) ↔ a ∈ docAddresses std v (cs.filter fun c => want c.1) := by
  induction cs generalizing n with
  | nil => simp [seeObjs, docAddresses]
  | cons c cs ih =>
    have hc := hok c (by simp)
    have ih := fun n => ih n (fun x hx => hok x (by simp [hx]))
    simp only [seeObjs]
    by_cases hw : want c.1 = true
    · rw [if_pos hw, List.filter_cons_of_pos (p := fun c : Str × Collection => want c.1) hw]
      simp only [docAddresses, List.flatMap_cons, List.mem_append, exists_or]
      rw [ih, ← seeColRegs_fst std v (kindD c.2) n c.2 hc]
      simp [docAddresses]
    · rw [if_neg hw, List.filter_cons_of_neg (p := fun c : Str × Collection => want c.1) hw, ← ih n]
      simp

theorem seeObjs_fresh (std : Std Pid) (v : Nat) (want : Str → Bool) (n : Nat) (cs : List (Str × Collection)) :
    Fresh n (evNews want cs) ((seeObjs std v want n cs).filterMap (·.2)) := by
  induction cs generalizing n with
  | nil => exact ⟨by simp [seeObjs], by simp [seeObjs]⟩
  | cons c cs ih =>
    simp only [seeObjs, evNews]
    split
    · rw [List.filterMap_append]
      refine Fresh.append ?_ (ih _)
      rw [List.filterMap_map]
      have : (fun x : Nat × Option Nat => x.2) ∘ (fun x : Nat × Nat => (x.1, some x.2)) = fun x => some x.2 := rfl
      rw [this, List.filterMap_eq_map']
      exact seeColRegs_fresh _ _ _ _
    · rw [List.filterMap_append, List.filterMap_map, Nat.zero_add]
      have : (fun x : Nat × Option Nat => x.2) ∘ (fun x : Nat => (x, none)) = fun _ => none := rfl
      rw [this, List.filterMap_eq_nil_iff.2 (fun _ _ => rfl), List.nil_append]
      exact ih n

theorem seeCols_ok (std : Std Pid) (v : Nat) (want : Str → Bool) (T : Nat → Nat) (n : Nat) (cs : List (Str × Collection))
    (hok : ∀ c ∈ cs, DocColOk v (kindD c.2) c.2) (h : ∀ a i, (a, some i) ∈ seeObjs std v want n cs → T a = i) :
    All2 (fun c c' => c'.1 = c.1 ∧ SeenCol std v (kindD c.2) T c.2 c'.2) (cs.filter fun c => want c.1) (seeCols std v want T n cs) := by
  induction cs generalizing n with
  | nil => exact All2.nil _
  | cons c cs ih =>
    simp only [seeObjs, seeCols] at h ⊢
    by_cases hw : want c.1 = true
    · rw [if_pos hw] at h ⊢
      rw [List.filter_cons_of_pos (p := fun c : Str × Collection => want c.1) hw]
      simp only [List.mem_append] at h
      refine All2.cons ⟨rfl, ?_⟩ (ih _ (fun x hx => hok x (by simp [hx])) fun a i hx => h a i (Or.inr hx))
      exact seeCol_ok std v _ T n c.2 (hok c (by simp)) fun x hx => h x.1 x.2 (Or.inl (List.mem_map_of_mem (f := fun x => (x.1, some x.2)) hx))
    · rw [if_neg hw] at h ⊢
      rw [List.filter_cons_of_neg (p := fun c : Str × Collection => want c.1) hw]
      exact ih _ (fun x hx => hok x (by simp [hx])) fun a i hx => h a i (List.mem_append.2 (Or.inr hx))

theorem mapPtr_seeCols (std : Std Pid) (vers : W32) (v : Nat) (hv : Vers vers v) (h8 : 8 ≤ v) (want : Str → Bool) (f g T : Nat → Nat) (hg : g 0 = 0)
    (n : Nat) (cs : List (Str × Collection)) (hok : ∀ c ∈ cs, DocColOk v (kindD c.2) c.2)
    (h : ∀ a ∈ ptrsOf (blocksItems (docBlocks std vers v cs)), g (f a) = T a) :
    (seeCols std v want f n cs).map (fun c => (c.1, c.2.mapPtr g)) = seeCols std v want T n cs := by
  unfold docBlocks at h
  induction cs generalizing n with
  | nil => rfl
  | cons c cs ih =>
    have hb : ∀ a ∈ ptrsOf (docCollection std v (kindD c.2) c.2), g (f a) = T a := fun a ha =>
      h a (by
        simp only [List.map_cons, blocksItems, List.flatMap_cons, ptrsOf_append, List.mem_append]
        refine Or.inl ?_
        unfold blockItems
        simp only [ptrsOf_append, List.mem_append]
        exact Or.inr ha)
    have ih := fun n => ih n (fun x hx => hok x (by simp [hx])) fun a ha =>
      h a (by simp only [List.map_cons, blocksItems, List.flatMap_cons, ptrsOf_append, List.mem_append]; exact Or.inr ha)
    simp only [seeCols]
    split
    · rw [List.map_cons, ih, mapPtr_seeCol std v _ f g hg n c.2 (hok c (by simp)), seeCol_congr std vers v hv h8 _ _ T n c.2 (hok c (by simp)) hb]
    · exact ih _

theorem readBlocks_null {α : Type} (bytes : List Byte) (decs : List (RBlock α)) (next : Nat) (r : List (Str × α)) (ρ : Nat → Nat) (dev : RDev)
    (h : readBlocks bytes decs next = .ok (r, ρ, dev)) : ρ 0 = 0 := by
  unfold readBlocks at h
  cases h1 : readBlocksLoop bytes decs (bytes.length + 1) 0 { buf := [], next := next } with
  | error e => rw [h1] at h; cases h
  | ok x =>
    rw [h1] at h
    simp only [bind, Except.bind] at h
    cases h2 : x.2.relocate with
    | error e => rw [h2] at h; cases h
    | ok d =>
      rw [h2] at h
      simp only [pure, Except.pure, Except.ok.injEq, Prod.mk.injEq] at h
      rw [← h.2.1]
      rfl

theorem distinct_of_fresh (l : List (Nat × Option Nat)) (hn : (l.filterMap (·.2)).Nodup) (a b i : Nat) (hi : (a, some i) ∈ l) (hj : (b, some i) ∈ l) :
    a = b := by
  induction l with
  | nil => cases hi
  | cons x l ih =>
    rcases List.mem_cons.1 hi with e1 | hi' <;> rcases List.mem_cons.1 hj with e2 | hj'
    · rw [← e1] at e2; cases e2; rfl
    · exfalso
      rw [← e1, List.filterMap_cons] at hn
      simp only [List.nodup_cons] at hn
      exact hn.1 (List.mem_filterMap.2 ⟨_, hj', rfl⟩)
    · exfalso
      rw [← e2, List.filterMap_cons] at hn
      simp only [List.nodup_cons] at hn
      exact hn.1 (List.mem_filterMap.2 ⟨_, hi', rfl⟩)
    · refine ih ?_ hi' hj'
      rw [List.filterMap_cons] at hn
      split at hn
      · exact hn
      · exact (List.nodup_cons.1 hn).2

theorem eventReads (std : Std Pid) (vers : W32) (v : Nat) (hv : Vers vers v) (h8 : 8 ≤ v) (want : Str → Bool) (cs : List (Str × Collection))
    (hst : ∀ c ∈ cs, DocColOk v (kindD c.2) c.2) (hnames : (cs.map (·.1)).Nodup) (haddr : (docAddresses std v cs).Nodup) (hnull : 0 ∉ docAddresses std v cs)
    (hsize : Writable eventRecordName (docBlocks std vers v cs))
    (buf : Str) (opts : W32) (next : Nat) (hnext : 0 < next) (heads : List (Str × ColHead))
    (hh : heads.map (fun c => (c.1, c.2.type)) = (cs.filter fun c => want c.1).map (fun c => (c.1, c.2.type))) :
    ∃ info bytes results ρ dev T, writeRecord eventRecordName buf (docBlocks std vers v cs) opts = .ok (info, bytes) ∧
      readBlocks (bytes.drop info.headerLength) (eventDecoders std heads) next = .ok (results, ρ, dev) ∧
      All2 (fun c c' => c'.1 = c.1 ∧ SeenCol std v (kindD c.2) T c.2 c'.2) (cs.filter fun c => want c.1)
        (results.map fun c => (c.1, c.2.mapPtr ρ)) ∧
      DocPointers std v (cs.filter fun c => want c.1) T := by
  rw [eventDecoders_eq std heads _ hh]
  have hdec := fun φ => decodeF_doc std vers v hv h8 want
    ((cs.filter fun c => want c.1).map fun c => (⟨c.1, Collection.read std c.2.type⟩ : RBlock Collection)) φ cs next hst (decoders_find std want cs hnames)
  have hnd : ((seeObjs std v want next cs).map (·.1)).Nodup := by rw [seeObjs_fst std v want next cs hst]; exact haddr
  have h0 : 0 ∉ (seeObjs std v want next cs).map (·.1) := by rw [seeObjs_fst std v want next cs hst]; exact hnull
  obtain ⟨info, bytes, φ, r, ρ, dev, h1, h2, h3, h4⟩ := flat_graph eventRecordName buf (docBlocks std vers v cs) opts
    ((cs.filter fun c => want c.1).map fun c => (⟨c.1, Collection.read std c.2.type⟩ : RBlock Collection)) next hsize
    (fun φ => by obtain ⟨slots, h⟩ := hdec φ; rw [h]; rfl)
  obtain ⟨slots, hd⟩ := hdec φ
  rw [hd, Option.some.injEq] at h2
  subst h2
  have hT : ∀ a i, (a, some i) ∈ seeObjs std v want next cs → target (seeObjs std v want next cs) a = i := fun a i => target_mem _ hnd h0 a i
  refine ⟨info, bytes, _, ρ, dev, target (seeObjs std v want next cs), h1, h3, ?_, ?_, ?_, ?_⟩
  · simp only
    rw [mapPtr_seeCols std vers v hv h8 want φ ρ (target (seeObjs std v want next cs)) (readBlocks_null _ _ _ _ _ _ h3) next cs hst h4]
    exact seeCols_ok std v want _ next cs hst hT
  · intro a ha
    apply target_none
    intro i hi
    exact ha ((seeObjs_wanted std v want next cs hst a).1 ⟨i, hi⟩)
  · intro a ha
    obtain ⟨i, hi⟩ := (seeObjs_wanted std v want next cs hst a).2 ha
    rw [hT a i hi]
    have := (seeObjs_fresh std v want next cs).2 i (List.mem_filterMap.2 ⟨_, hi, rfl⟩)
    omega
  · intro a ha b hb hab
    obtain ⟨i, hi⟩ := (seeObjs_wanted std v want next cs hst a).2 ha
    obtain ⟨j, hj⟩ := (seeObjs_wanted std v want next cs hst b).2 hb
    rw [hT a i hi, hT b j hj] at hab
    subst hab
    exact distinct_of_fresh _ (seeObjs_fresh std v want next cs).1 a b i hi hj

end Lcio
