import Verif.Util.NavigatorLemmas
import Verif.Util.NavRefs
import Verif.Spec.NavRefs
/-
What the nodes of the maps of a navigator hold.
-/
namespace Util
open Sio Lcio Spec

/-- The vectors of the relations of one object. -/
def vecsOf (R : List Relation) (k : Nat) : List Nat × List W32 := ((R.filter (·.from_ = k)).map (·.to), (R.filter (·.from_ = k)).map (·.weight))

structure NodesHold (m : NodeMap) (R : List Relation) : Prop where
  entry : ∀ k p, omFind addrLt k m.index = some p → m.nodes[p]? = some (some (vecsOf R k))
  missing : ∀ k, omFind addrLt k m.index = none → R.filter (·.from_ = k) = []
  inj : ∀ k k' p, omFind addrLt k m.index = some p → omFind addrLt k' m.index = some p → k = k'

/-- What becomes of references when a map changes. -/
structure NodesKeep (m m' : NodeMap) (R R' : List Relation) : Prop where
  holds : NodesHold m' R'
  live : ∀ k p, omFind addrLt k m.index = some p → ¬ (R.filter (·.from_ = k) ≠ [] ∧ R'.filter (·.from_ = k) = []) → omFind addrLt k m'.index = some p
  died : ∀ k p, omFind addrLt k m.index = some p → R.filter (·.from_ = k) ≠ [] → R'.filter (·.from_ = k) = [] → m'.nodes[p]? = some none
  dead : ∀ p : Nat, m.nodes[p]? = some none → m'.nodes[p]? = some none

theorem keep_refl {m : NodeMap} {R : List Relation} (h : NodesHold m R) : NodesKeep m m R R :=
  ⟨h, fun _ _ hp _ => hp, fun _ _ _ h1 h2 => absurd h2 h1, fun _ hp => hp⟩

theorem locate_find (m : NodeMap) (k : Nat) : omFind addrLt k (m.locate k).2.index = some (m.locate k).1 := by
  unfold NodeMap.locate
  split
  · assumption
  · simp only [find_assign, if_true]

theorem locate_keep {m : NodeMap} {R : List Relation} (h : NodesHold m R) (k : Nat) : NodesKeep m (m.locate k).2 R R := by
  unfold NodeMap.locate
  split
  · exact keep_refl h
  · rename_i hn
    have old : ∀ k' p, omFind addrLt k' m.index = some p → p < m.nodes.length := by
      intro k' p hp
      have := h.entry k' p hp
      exact (List.getElem?_eq_some_iff.1 this).1
    refine ⟨⟨?_, ?_, ?_⟩, ?_, fun _ _ _ h1 h2 => absurd h2 h1, ?_⟩
    · intro k' p hp
      simp only [find_assign] at hp
      by_cases hk : k' = k
      · rw [if_pos hk] at hp
        obtain rfl := (Option.some.inj hp).symm
        simp only [hk, vecsOf, h.missing k hn, List.map_nil, List.getElem?_concat_length]
      · rw [if_neg hk] at hp
        rw [List.getElem?_append_left (old k' p hp)]
        exact h.entry k' p hp
    · intro k' hp
      simp only [find_assign] at hp
      by_cases hk : k' = k
      · rw [if_pos hk] at hp; exact absurd hp (by simp)
      · rw [if_neg hk] at hp; exact h.missing k' hp
    · intro k1 k2 p h1 h2
      simp only [find_assign] at h1 h2
      by_cases e1 : k1 = k <;> by_cases e2 : k2 = k
      · rw [e1, e2]
      · rw [if_pos e1] at h1; rw [if_neg e2] at h2
        have := old k2 p h2
        have := Option.some.inj h1
        omega
      · rw [if_neg e1] at h1; rw [if_pos e2] at h2
        have := old k1 p h1
        have := Option.some.inj h2
        omega
      · rw [if_neg e1] at h1; rw [if_neg e2] at h2
        exact h.inj k1 k2 p h1 h2
    · intro k' p hp _
      simp only [find_assign]
      by_cases hk : k' = k
      · rw [hk, hn] at hp; exact absurd hp (by simp)
      · rw [if_neg hk]; exact hp
    · intro p hp
      have : p < m.nodes.length := (List.getElem?_eq_some_iff.1 hp).1
      simp only
      rw [List.getElem?_append_left this]; exact hp

theorem relAdd_ne_nil (add : W32 → W32 → W32) (R : List Relation) (a b : Nat) (w : W32) : relAdd add R a b w ≠ [] := by
  unfold relAdd
  split
  · rename_i h
    intro e
    rw [List.map_eq_nil_iff] at e
    rw [e] at h; cases h
  · simp

theorem add_keep {m : NodeMap} {R : List Relation} (h : NodesHold m R) (hn : (R.map ends).Nodup) (add : W32 → W32 → W32) (a b : Nat) (w : W32) :
    NodesKeep m (m.add add a b w) R (relAdd add R a b w) := by
  have hl := locate_find m a
  have hk := locate_keep h a
  unfold NodeMap.add
  generalize m.locate a = x at hl hk
  obtain ⟨p, m1⟩ := x
  simp only at hl hk ⊢
  have he := hk.holds.entry a p hl
  rw [he]
  simp only [vecsOf]
  rw [vec_add add a b w _ (from_of_filter R a) (nodup_filter R _ hn)]
  have hlt : p < m1.nodes.length := (List.getElem?_eq_some_iff.1 he).1
  have hd : ∀ k, R.filter (·.from_ = k) ≠ [] → (relAdd add R a b w).filter (·.from_ = k) = [] → False := by
    intro k h1 h2
    rw [filter_add] at h2
    by_cases e : k = a
    · rw [if_pos e] at h2; exact relAdd_ne_nil _ _ _ _ _ h2
    · rw [if_neg e] at h2; exact h1 h2
  refine ⟨⟨?_, ?_, hk.holds.inj⟩, ?_, fun k _ _ h1 h2 => (hd k h1 h2).elim, ?_⟩
  · intro k q hq
    simp only at hq ⊢
    by_cases e : k = a
    · subst e
      obtain rfl : p = q := Option.some.inj (hl.symm.trans hq)
      rw [List.getElem?_set_self hlt, vecsOf, filter_add, if_pos rfl]
    · have hne : p ≠ q := fun e' => e (hk.holds.inj k a q hq (e' ▸ hl))
      rw [List.getElem?_set_ne hne, hk.holds.entry k q hq, vecsOf, vecsOf, filter_add, if_neg e]
  · intro k hq
    simp only at hq
    rw [filter_add]
    by_cases e : k = a
    · rw [e, hl] at hq; exact absurd hq (by simp)
    · rw [if_neg e]; exact hk.holds.missing k hq
  · intro k q hq _
    exact hk.live k q hq (fun ⟨h1, h2⟩ => h1 h2)
  · intro q hq
    have hq' := hk.dead q hq
    have hne : p ≠ q := by
      intro e
      rw [← e, he] at hq'
      simp at hq'
    simp only
    rw [List.getElem?_set_ne hne]; exact hq'

theorem remove_keep {m : NodeMap} {R : List Relation} (h : NodesHold m R) (hn : (R.map ends).Nodup) (a b : Nat) :
    NodesKeep m (m.remove a b) R (relRemove R a b) := by
  have hv := vec_remove a b _ (from_of_filter R a) (nodup_filter R (·.from_ = a) hn)
  have same : ∀ k, k ≠ a → (relRemove R a b).filter (·.from_ = k) = R.filter (·.from_ = k) := by
    intro k hk; rw [filter_remove, if_neg hk]
  have unchanged : (relRemove R a b).filter (·.from_ = a) = R.filter (·.from_ = a) → NodesKeep m m R (relRemove R a b) := by
    intro hs
    have hall : ∀ k, (relRemove R a b).filter (·.from_ = k) = R.filter (·.from_ = k) := by
      intro k
      by_cases hk : k = a
      · rw [hk]; exact hs
      · exact same k hk
    refine ⟨⟨fun k p hp => ?_, fun k hk => ?_, h.inj⟩, fun _ _ hp _ => hp, fun k _ _ h1 h2 => absurd (hall k ▸ h2) h1, fun _ hp => hp⟩
    · rw [vecsOf, hall]; exact h.entry k p hp
    · rw [hall]; exact h.missing k hk
  unfold NodeMap.remove
  cases hf : omFind addrLt a m.index with
  | none =>
    refine unchanged ?_
    rw [filter_remove, if_pos rfl, h.missing a hf]; rfl
  | some p =>
    have he := h.entry a p hf
    have hlt : p < m.nodes.length := (List.getElem?_eq_some_iff.1 he).1
    simp only
    rw [he]
    simp only [vecsOf]
    cases hi : ((R.filter (·.from_ = a)).map (·.to)).findIdx? (· == b) with
    | none =>
      rw [hi] at hv
      exact unchanged (by rw [filter_remove, if_pos rfl]; exact hv)
    | some i =>
      rw [hi] at hv
      obtain ⟨v1, v2⟩ := hv
      simp only
      have hR : (relRemove R a b).filter (·.from_ = a) = relRemove (R.filter (·.from_ = a)) a b := by rw [filter_remove, if_pos rfl]
      have hneE : R.filter (·.from_ = a) ≠ [] := by
        intro e; rw [e] at hi; cases hi
      simp only [v1, v2]
      have nodeNe : ∀ k q, omFind addrLt k m.index = some q → k ≠ a → p ≠ q := fun k q hq hk e => hk (h.inj k a q hq (e ▸ hf))
      have deadNe : ∀ q, m.nodes[q]? = some none → p ≠ q := by
        intro q hq e
        rw [← e, he] at hq; simp at hq
      by_cases hE : (relRemove (R.filter (·.from_ = a)) a b).map (·.to) = []
      · rw [if_pos hE]
        have hE' : (relRemove R a b).filter (·.from_ = a) = [] := by rw [hR]; exact List.map_eq_nil_iff.1 hE
        refine ⟨⟨?_, ?_, ?_⟩, ?_, ?_, ?_⟩
        · intro k q hq
          simp only [find_erase] at hq
          by_cases hk : k = a
          · rw [if_pos hk] at hq; exact absurd hq (by simp)
          · rw [if_neg hk] at hq
            simp only
            rw [List.getElem?_set_ne (nodeNe k q hq hk), vecsOf, same k hk]; exact h.entry k q hq
        · intro k hq
          simp only [find_erase] at hq
          by_cases hk : k = a
          · rw [hk]; exact hE'
          · rw [if_neg hk] at hq; rw [same k hk]; exact h.missing k hq
        · intro k1 k2 q h1 h2
          simp only [find_erase] at h1 h2
          by_cases e1 : k1 = a
          · rw [if_pos e1] at h1; exact absurd h1 (by simp)
          by_cases e2 : k2 = a
          · rw [if_pos e2] at h2; exact absurd h2 (by simp)
          rw [if_neg e1] at h1; rw [if_neg e2] at h2
          exact h.inj k1 k2 q h1 h2
        · intro k q hq hnot
          simp only [find_erase]
          by_cases hk : k = a
          · exact absurd ⟨hk ▸ hneE, hk ▸ hE'⟩ hnot
          · rw [if_neg hk]; exact hq
        · intro k q hq h1 h2
          by_cases hk : k = a
          · subst hk
            obtain rfl : p = q := Option.some.inj (hf.symm.trans hq)
            exact List.getElem?_set_self hlt
          · rw [same k hk] at h2; exact absurd h2 h1
        · intro q hq
          simp only
          rw [List.getElem?_set_ne (deadNe q hq)]; exact hq
      · rw [if_neg hE]
        have hE' : (relRemove R a b).filter (·.from_ = a) ≠ [] := by
          rw [hR]; intro e; exact hE (by rw [e]; rfl)
        refine ⟨⟨?_, ?_, h.inj⟩, fun _ _ hq _ => hq, ?_, ?_⟩
        · intro k q hq
          simp only at hq ⊢
          by_cases hk : k = a
          · subst hk
            obtain rfl : p = q := Option.some.inj (hf.symm.trans hq)
            rw [List.getElem?_set_self hlt, vecsOf, hR]
          · rw [List.getElem?_set_ne (nodeNe k q hq hk), vecsOf, same k hk]; exact h.entry k q hq
        · intro k hq
          simp only at hq
          by_cases hk : k = a
          · rw [hk, hf] at hq; exact absurd hq (by simp)
          · rw [same k hk]; exact h.missing k hq
        · intro k q hq h1 h2
          by_cases hk : k = a
          · rw [hk] at h2; exact absurd h2 hE'
          · rw [same k hk] at h2; exact absurd h2 h1
        · intro q hq
          simp only
          rw [List.getElem?_set_ne (deadNe q hq)]; exact hq

/-- The navigator holds the relations `R`. -/
structure RefNavHolds (n : RefNavigator) (R : List Relation) : Prop where
  nodup : (R.map ends).Nodup
  fwd : NodesHold n.map R
  bwd : NodesHold n.rMap (R.map flip)

theorem ref_call (add : W32 → W32 → W32) {n : RefNavigator} {R : List Relation} (h : RefNavHolds n R) (c : NavCall) :
    ((relAfter add R c).map ends).Nodup ∧ NodesKeep n.map (n.call add c).2.map R (relAfter add R c) ∧
      NodesKeep n.rMap (n.call add c).2.rMap (R.map flip) ((relAfter add R c).map flip) := by
  cases c with
  | add a b w =>
    refine ⟨nodup_add add R a b w h.nodup, add_keep h.fwd h.nodup add a b w, ?_⟩
    show NodesKeep _ (n.rMap.add add b a w) _ ((relAdd add R a b w).map flip)
    rw [← flip_add]
    exact add_keep h.bwd (nodup_flip R h.nodup) add b a w
  | remove a b =>
    refine ⟨nodup_remove R a b h.nodup, remove_keep h.fwd h.nodup a b, ?_⟩
    show NodesKeep _ (n.rMap.remove b a) _ ((relRemove R a b).map flip)
    rw [← flip_remove]
    exact remove_keep h.bwd (nodup_flip R h.nodup) b a
  | toObjects a => exact ⟨h.nodup, locate_keep h.fwd a, keep_refl h.bwd⟩
  | toWeights a => exact ⟨h.nodup, locate_keep h.fwd a, keep_refl h.bwd⟩
  | fromObjects a => exact ⟨h.nodup, keep_refl h.fwd, locate_keep h.bwd a⟩
  | fromWeights a => exact ⟨h.nodup, keep_refl h.fwd, locate_keep h.bwd a⟩
  | create => exact ⟨h.nodup, keep_refl h.fwd, keep_refl h.bwd⟩

theorem ref_call_holds (add : W32 → W32 → W32) {n : RefNavigator} {R : List Relation} (h : RefNavHolds n R) (c : NavCall) :
    RefNavHolds (n.call add c).2 (relAfter add R c) :=
  let ⟨h1, h2, h3⟩ := ref_call add h c
  ⟨h1, h2.holds, h3.holds⟩

theorem ref_calls_hold (add : W32 → W32 → W32) {n : RefNavigator} {R : List Relation} (h : RefNavHolds n R) (cs : List NavCall) :
    RefNavHolds (n.calls add cs) (relsAfter add R cs) := by
  induction cs generalizing n R with
  | nil => exact h
  | cons c cs ih => exact ih (ref_call_holds add h c)

theorem ref_new : RefNavHolds {} [] :=
  ⟨List.nodup_nil, ⟨fun _ _ h => absurd h (by simp [omFind]), fun _ _ => rfl, fun _ _ _ h => absurd h (by simp [omFind])⟩,
    ⟨fun _ _ h => absurd h (by simp [omFind]), fun _ _ => rfl, fun _ _ _ h => absurd h (by simp [omFind])⟩⟩

/-- The map a getter looks into, its object and the relations as that map holds them. -/
def sideMap (n : RefNavigator) : NavCall → NodeMap
  | .fromObjects _ | .fromWeights _ => n.rMap
  | _ => n.map

def sideKey : NavCall → Nat
  | .toObjects a | .toWeights a | .fromObjects a | .fromWeights a => a
  | _ => 0

def sideRels (R : List Relation) : NavCall → List Relation
  | .fromObjects _ | .fromWeights _ => R.map flip
  | _ => R

theorem side_listed (R : List Relation) (c : NavCall) (n : RefNavigator) (add : W32 → W32 → W32) (ref : NavRef) (hr : (n.call add c).1 = some ref) :
    (sideRels R c).filter (·.from_ = sideKey c) = [] ↔ navListed R c = [] := by
  cases c with
  | add => cases hr
  | remove => cases hr
  | create => cases hr
  | toObjects a => exact Iff.rfl
  | toWeights a => exact Iff.rfl
  | fromObjects a =>
    show (R.map flip).filter (·.from_ = a) = [] ↔ R.filter (·.to = a) = []
    rw [flip_filter, List.map_eq_nil_iff]
  | fromWeights a =>
    show (R.map flip).filter (·.from_ = a) = [] ↔ R.filter (·.to = a) = []
    rw [flip_filter, List.map_eq_nil_iff]

theorem side_keep (add : W32 → W32 → W32) {n : RefNavigator} {R : List Relation} (h : RefNavHolds n R) (c d : NavCall) :
    NodesKeep (sideMap n c) (sideMap (n.call add d).2 c) (sideRels R c) (sideRels (relAfter add R d) c) := by
  obtain ⟨_, h2, h3⟩ := ref_call add h d
  cases c <;> assumption

theorem look_live (add : W32 → W32 → W32) {n : RefNavigator} {R : List Relation} (h : RefNavHolds n R) (c : NavCall) (n0 : RefNavigator) (ref : NavRef)
    (hr : (n0.call add c).1 = some ref) (hl : omFind addrLt (sideKey c) (sideMap n c).index = some ref.node) : n.look ref = .ok (navShown (navListed R c) c) := by
  cases c with
  | add => cases hr
  | remove => cases hr
  | create => cases hr
  | toObjects a =>
    have := h.fwd.entry _ _ hl
    cases hr
    simp only [RefNavigator.look, NodeMap.read, Bool.false_eq_true, if_false] at this ⊢
    rw [this]; rfl
  | toWeights a =>
    have := h.fwd.entry _ _ hl
    cases hr
    simp only [RefNavigator.look, NodeMap.read, Bool.false_eq_true, if_false, if_true] at this ⊢
    rw [this]; rfl
  | fromObjects a =>
    have := h.bwd.entry a _ hl
    cases hr
    simp only [RefNavigator.look, NodeMap.read, Bool.false_eq_true, if_false, if_true] at this ⊢
    rw [this]
    simp only [vecsOf, flip_filter, List.map_map, navShown, navListed]
    rfl
  | fromWeights a =>
    have := h.bwd.entry a _ hl
    cases hr
    simp only [RefNavigator.look, NodeMap.read, if_true] at this ⊢
    rw [this]
    simp only [vecsOf, flip_filter, List.map_map, navShown, navListed]
    rfl

theorem look_dead (add : W32 → W32 → W32) (n : RefNavigator) (c : NavCall) (n0 : RefNavigator) (ref : NavRef)
    (hr : (n0.call add c).1 = some ref) (hd : (sideMap n c).nodes[ref.node]? = some none) : n.look ref = .error .ub := by
  cases c with
  | add => cases hr
  | remove => cases hr
  | create => cases hr
  | toObjects a => cases hr; simp only [sideMap] at hd; simp [RefNavigator.look, NodeMap.read, hd]
  | toWeights a => cases hr; simp only [sideMap] at hd; simp [RefNavigator.look, NodeMap.read, hd]
  | fromObjects a => cases hr; simp only [sideMap] at hd; simp [RefNavigator.look, NodeMap.read, hd]
  | fromWeights a => cases hr; simp only [sideMap] at hd; simp [RefNavigator.look, NodeMap.read, hd]

theorem fresh_live (add : W32 → W32 → W32) (n : RefNavigator) (c : NavCall) (ref : NavRef) (hr : (n.call add c).1 = some ref) :
    omFind addrLt (sideKey c) (sideMap (n.call add c).2 c).index = some ref.node := by
  cases c with
  | add => cases hr
  | remove => cases hr
  | create => cases hr
  | toObjects a => cases hr; exact locate_find _ _
  | toWeights a => cases hr; exact locate_find _ _
  | fromObjects a => cases hr; exact locate_find _ _
  | fromWeights a => cases hr; exact locate_find _ _

theorem look_after (add : W32 → W32 → W32) (c : NavCall) (n0 : RefNavigator) (ref : NavRef) (hr : (n0.call add c).1 = some ref) (ds : List NavCall) :
    ∀ {n : RefNavigator} {R : List Relation}, RefNavHolds n R →
      ((sideMap n c).nodes[ref.node]? = some none → (sideMap (n.calls add ds) c).nodes[ref.node]? = some none) ∧
      (omFind addrLt (sideKey c) (sideMap n c).index = some ref.node →
        (¬ navEmptied add c R ds → omFind addrLt (sideKey c) (sideMap (n.calls add ds) c).index = some ref.node) ∧
        (navEmptied add c R ds → (sideMap (n.calls add ds) c).nodes[ref.node]? = some none)) := by
  induction ds with
  | nil => intro n R h; exact ⟨id, fun hl => ⟨fun _ => hl, False.elim⟩⟩
  | cons d ds ih =>
    intro n R h
    have hk := side_keep add h c d
    obtain ⟨i1, i2⟩ := ih (ref_call_holds add h d)
    have hs := side_listed R c n0 add ref hr
    have hs' := side_listed (relAfter add R d) c n0 add ref hr
    refine ⟨fun hd => i1 (hk.dead _ hd), fun hl => ?_⟩
    by_cases he : navListed R c ≠ [] ∧ navListed (relAfter add R d) c = []
    · refine ⟨fun hn => absurd (Or.inl he) hn, fun _ => i1 (hk.died _ _ hl (fun e => he.1 (hs.1 e)) (hs'.2 he.2))⟩
    · have hl' := hk.live _ _ hl (fun ⟨e1, e2⟩ => he ⟨fun e => e1 (hs.2 e), hs'.1 e2⟩)
      obtain ⟨j1, j2⟩ := i2 hl'
      exact ⟨fun hn => j1 (fun e => hn (Or.inr e)), fun e => j2 (e.resolve_left he)⟩

end Util
