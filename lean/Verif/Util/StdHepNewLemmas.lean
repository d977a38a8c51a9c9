import Verif.Util.StdHepNew
import Verif.Util.StdHepLemmas5
import Verif.Spec.StdHepNew
/-
The fourth loop of the second reader of StdHep files.
-/
namespace Util
open Sio Spec Lcio

/-- The mothers that are not overlooked. -/
def seenMothers (t : LTrack) : List Nat := if Overlooked t then [] else namedMothers t

theorem namedMothers_nodup (t : LTrack) : (namedMothers t).Nodup := by
  unfold namedMothers
  split
  · split
    · exact List.nodup_range'
    · rename_i h1 h2
      simp only [List.nodup_cons, List.mem_singleton, List.not_mem_nil, not_false_eq_true, List.nodup_nil, and_true]
      omega
  · split <;> simp

theorem namedMothers_lt (t : LTrack) (n : Nat) (h1 : t.mother1 ≤ n) (h2 : t.mother2 ≤ n) : ∀ j ∈ namedMothers t, j < n := by
  intro j hj
  unfold namedMothers at hj
  split at hj
  · split at hj
    · rw [List.mem_range'_1] at hj; omega
    · simp only [List.mem_cons, List.not_mem_nil, or_false] at hj; omega
  · split at hj
    · simp only [List.mem_cons, List.not_mem_nil, or_false] at hj; omega
    · cases hj

theorem seen_nodup (t : LTrack) : (seenMothers t).Nodup := by
  unfold seenMothers; split
  · exact List.nodup_nil
  · exact namedMothers_nodup t

theorem seen_lt (t : LTrack) (n : Nat) (h1 : t.mother1 ≤ n) (h2 : t.mother2 ≤ n) : ∀ j ∈ seenMothers t, j < n := by
  intro j hj
  unfold seenMothers at hj
  split at hj
  · cases hj
  · exact namedMothers_lt t n h1 h2 j hj

theorem int32_same (m : Int) (h1 : -2 ^ 31 ≤ m) (h2 : m < 2 ^ 31) : (BitVec.ofInt 32 m).toInt = m := by
  rw [BitVec.toInt_ofInt, Int.bmod_eq_of_le] <;> omega

/-- One entry: the mothers that are seen. -/
theorem hepMothers_eq (n i : Nat) (h : PHeap) (t : LTrack) (a1 : -2 ^ 31 < t.mother1) (a2 : t.mother1 ≤ n) (b1 : -2 ^ 31 < t.mother2) (b2 : t.mother2 ≤ n) (hn : n < 2 ^ 31) :
    hepMothers n i h t.mother1 t.mother2 = (seenMothers t).foldlM (fun h (j : Nat) => hepAdopt n i h (j : Int)) h := by
  unfold hepMothers
  rw [int32_same _ (by omega) (by omega), int32_same _ (by omega) (by omega)]
  simp only
  unfold seenMothers
  by_cases c1 : t.mother1 - 1 > 0 ∧ t.mother2 - 1 = -1
  · rw [if_pos c1, if_neg (show ¬ Overlooked t by unfold Overlooked; omega)]
    unfold namedMothers
    rw [if_neg (by omega), if_pos (by omega)]
    rw [List.foldlM_cons]
    have : (((t.mother1 - 1).toNat : Nat) : Int) = t.mother1 - 1 := by omega
    rw [this]
    cases hepAdopt n i h (t.mother1 - 1) <;> rfl
  · rw [if_neg c1]
    by_cases c2 : t.mother1 - 1 > -1 ∧ t.mother2 - 1 > -1
    · rw [if_pos c2]
      by_cases c3 : t.mother1 ≤ t.mother2
      · rw [if_neg (show ¬ Overlooked t by unfold Overlooked; omega)]
        unfold namedMothers
        rw [if_pos (by omega), if_pos c3]
        rw [foldlM_map_range (fun h k => hepAdopt n i h k) (t.mother1 - 1) (t.mother1 - 1).toNat (by omega)]
        congr 2
        omega
      · rw [if_pos (show Overlooked t by unfold Overlooked; omega)]
        have : (t.mother2 - 1 - (t.mother1 - 1) + 1).toNat = 0 := by omega
        rw [this]; rfl
    · rw [if_neg c2]
      by_cases c3 : 0 < t.mother1
      · rw [if_pos (show Overlooked t by unfold Overlooked; omega)]; rfl
      · split
        · rfl
        · unfold namedMothers; rw [if_neg (by omega), if_neg c3]; rfl

/-- One entry gets parents. -/
theorem adoptAll (n : Nat) (i : Nat) (hi : i < n) : ∀ (js : List Nat) (P D : Nat → List Nat), js.Nodup → (∀ j ∈ js, j < n) → (∀ k, k < n → (i ∈ D k ↔ k ∈ P i)) →
    js.foldlM (fun h (j : Nat) => hepAdopt n i h (j : Int)) (heapOf n P D) =
      .ok (heapOf n (updAt P i (P i ++ js.filter fun j => j ∉ P i)) (fun k => if k ∈ js ∧ i ∉ D k then D k ++ [i] else D k)) := by
  intro js
  induction js with
  | nil =>
    intro P D _ _ _
    show Except.ok _ = _
    congr 2
    · funext a; simp [updAt]; intro h; rw [h]
  | cons j js ih =>
    intro P D hn hb hs
    rw [List.nodup_cons] at hn
    have hj := hb j (by simp)
    have hbs : ∀ k ∈ js, k < n := fun k hk => hb k (by simp [hk])
    have h1 : heapOf n P D j = some { parents := P j, daughters := D j } := if_pos hj
    rw [List.foldlM_cons]
    have hstep : hepAdopt n i (heapOf n P D) (j : Int) = if i ∈ D j then .ok (heapOf n P D) else .ok (heapOf n (updAt P i (P i ++ [j])) (updAt D j (D j ++ [i]))) := by
      unfold hepAdopt
      rw [if_neg (by omega), Int.toNat_natCast, h1]
      simp only [List.contains_iff_mem]
      by_cases hc : i ∈ D j
      · rw [if_pos hc, if_pos hc]
      · rw [if_neg hc, if_neg hc, addParent_heap n P D i j hi hj (fun h => hc ((hs j hj).2 h))]
    rw [hstep]
    by_cases hc : i ∈ D j
    · rw [if_pos hc]
      refine (ih P D hn.2 hbs hs).trans ?_
      have hp := (hs j hj).1 hc
      congr 2
      · rw [List.filter_cons_of_neg (by simpa using hp)]
      · funext k
        by_cases hk : k = j
        · subst hk; simp [hc]
        · simp [hk]
    · rw [if_neg hc]
      have hp : j ∉ P i := fun h => hc ((hs j hj).2 h)
      refine (ih _ _ hn.2 hbs ?_).trans ?_
      · intro k hk
        by_cases hkj : k = j
        · subst hkj; simp [updAt]
        · simp [updAt, hkj, hs k hk]
      · congr 2
        · funext a
          by_cases ha : a = i
          · subst ha
            simp only [updAt, if_pos]
            rw [List.filter_cons_of_pos (by simpa using hp), List.append_assoc]
            congr 2
            simp only [List.singleton_append, List.cons.injEq, true_and]
            apply List.filter_congr
            intro k hk
            have : k ≠ j := fun h => hn.1 (h ▸ hk)
            simp [this]
          · simp [updAt, ha]
        · funext k
          by_cases hk : k = j
          · subst hk; simp [updAt, hn.1, hc]
          · simp [updAt, hk]

/-- Mothers of a particle by its position. -/
def seenAt (e : HepEvent) (j : Nat) : List Nat := ((e.tracks[j]?).map seenMothers).getD []

theorem fourthLoop (ev : LEvent) (e : HepEvent) (h : EventIs ev e) (hm : UsableMothers e) (P D : Nat → List Nat)
    (hs : ∀ i k, i < e.tracks.length → k < e.tracks.length → (i ∈ D k ↔ k ∈ P i)) :
    (List.range e.tracks.length).foldlM (fun (h : PHeap) i => do
      let m1 ← element ev.jmohep (i + i + 0)
      let m2 ← element ev.jmohep (i + i + 1)
      hepMothers e.tracks.length i h m1 m2) (heapOf e.tracks.length P D) =
    .ok (heapOf e.tracks.length (fun j => P j ++ (seenAt e j).filter fun i => i ∉ P j)
      (fun i => D i ++ (List.range e.tracks.length).filter fun j => j ∉ D i ∧ i ∈ seenAt e j)) := by
  have key : ∀ m, m ≤ e.tracks.length → (List.range m).foldlM (fun (h : PHeap) i => do
      let m1 ← element ev.jmohep (i + i + 0)
      let m2 ← element ev.jmohep (i + i + 1)
      hepMothers e.tracks.length i h m1 m2) (heapOf e.tracks.length P D) =
    .ok (heapOf e.tracks.length (fun j => if j < m then P j ++ (seenAt e j).filter fun i => i ∉ P j else P j)
      (fun i => D i ++ (List.range m).filter fun j => j ∉ D i ∧ i ∈ seenAt e j)) := by
    intro m
    induction m with
    | zero =>
      intro _
      show Except.ok _ = _
      congr 2
      funext i; simp
    | succ m ih =>
      intro hmn
      have ht := List.getElem?_eq_getElem (l := e.tracks) (i := m) hmn
      generalize hte : e.tracks[m] = t at ht
      have hmem : t ∈ e.tracks := hte ▸ List.getElem_mem hmn
      obtain ⟨a1, a2, b1, b2⟩ := hm.mothers t hmem
      have hse : seenAt e m = seenMothers t := by unfold seenAt; rw [ht]; rfl
      rw [List.range_succ, List.foldlM_append, ih (by omega)]
      simp only [List.foldlM_cons, List.foldlM_nil]
      refine (Except.bind_ok' _ _).trans ?_
      have hd := fun j b hj hb => element_chunk 2 (fun t : LTrack => [t.mother1, t.mother2]) (fun _ => rfl) e.tracks m j hj t b ht hb
      rw [h.mothers, show m + m = m * 2 by omega, hd 0 t.mother1 (by decide) rfl, hd 1 t.mother2 (by decide) rfl]
      show (hepMothers e.tracks.length m _ t.mother1 t.mother2 >>= pure) = _
      rw [hepMothers_eq _ _ _ t a1 a2 b1 b2 hm.size, adoptAll _ m hmn (seenMothers t) _ _ (seen_nodup t) (seen_lt t _ a2 b2) (by
        intro k hk
        simp only [List.mem_append, List.mem_filter, List.mem_range, Nat.lt_irrefl, false_and, or_false, if_false]
        exact hs m k hmn hk)]
      show Except.ok _ = _
      congr 2
      · funext j
        by_cases hj : j = m
        · subst hj; simp [updAt, hse]
        · have : j < m + 1 ↔ j < m := by omega
          simp [updAt, hj, this]
      · funext i
        rw [List.filter_append]
        have hmi : m ∉ (List.range m).filter fun j => j ∉ D i ∧ i ∈ seenAt e j := by simp
        by_cases hc : i ∈ seenMothers t ∧ m ∉ D i
        · rw [if_pos ⟨hc.1, by rw [List.mem_append]; exact fun h => h.elim hc.2 hmi⟩, List.filter_cons_of_pos (by simpa [hse] using ⟨hc.2, hc.1⟩), List.append_assoc]; rfl
        · rw [if_neg (fun h => hc ⟨h.1, fun h' => h.2 (List.mem_append_left _ h')⟩), List.filter_cons_of_neg (by
            rw [hse, decide_eq_true_eq]; exact fun h => hc ⟨h.2, h.1⟩)]; simp
  refine (key _ (Nat.le_refl _)).trans ?_
  congr 1
  funext a
  unfold heapOf
  split
  · rename_i ha; simp [ha]
  · rfl

theorem heapOf_relatives (ns : List PNode) (hw : ∀ n ∈ ns, n.readOnly = false) :
    (fun a => ns[a]?) = heapOf ns.length (fun a => ((ns[a]?).getD {}).parents) (fun a => ((ns[a]?).getD {}).daughters) := by
  funext a
  unfold heapOf
  by_cases ha : a < ns.length
  · rw [if_pos ha]
    have h0 := List.getElem?_eq_getElem ha
    have := hw _ (List.getElem_mem ha)
    generalize ns[a] = x at this h0
    rw [h0]
    cases x
    simp only at this
    simp only [h0, this, Option.getD_some]
  · rw [if_neg ha, List.getElem?_eq_none (by omega)]

/-- The collection of the second reader is that of the first one with more relations. -/
theorem hepCollectionNew_spec (ar : HepArith) (ev : LEvent) (e : HepEvent) (h : EventIs ev e) (hu : Usable e.reduced) (hm : UsableMothers e) :
    ∃ c c', hepCollection ar ev = .ok c ∧ Converted ar e.reduced ev.eventweight ev.idrup c ∧ hepCollectionNew ar ev = .ok c' ∧
      c'.particles = c.particles ∧ c'.idrup = c.idrup ∧ c'.weight = c.weight ∧ WithMothers e seenMothers c.relatives c'.relatives := by
  obtain ⟨c, c1, c2⟩ := hepCollection_digits ar ev e h hu
  have hr := c2.relatives
  have hlen : c.relatives.length = e.tracks.length := by rw [hr.length]; unfold HepEvent.reduced; rw [List.length_map]
  have hn : ev.nhep.toNat = e.tracks.length := by rw [h.n, Int.toNat_natCast]
  have hget : ∀ i, i < e.tracks.length → ∃ a, c.relatives[i]? = some a := fun i hi => ⟨c.relatives[i]'(by omega), List.getElem?_eq_getElem _⟩
  have h4 := fourthLoop ev e h hm (fun a => ((c.relatives[a]?).getD {}).parents) (fun a => ((c.relatives[a]?).getD {}).daughters) (by
    intro i k hi hk
    obtain ⟨a, ha⟩ := hget i hi
    obtain ⟨b, hb⟩ := hget k hk
    simp only [ha, hb, Option.getD_some]
    exact hr.symmetric k i b a hb ha)
  generalize hP : (fun j => ((c.relatives[j]?).getD {}).parents ++ (seenAt e j).filter fun i => i ∉ ((c.relatives[j]?).getD {}).parents) = P at h4
  generalize hD : (fun i => ((c.relatives[i]?).getD {}).daughters ++ (List.range e.tracks.length).filter fun j => j ∉ ((c.relatives[i]?).getD {}).daughters ∧ i ∈ seenAt e j) = D at h4
  refine ⟨c, { c with relatives := (List.range e.tracks.length).map fun i => ((heapOf e.tracks.length P D) i).getD {} }, c1, c2, ?_, rfl, rfl, rfl, ?_⟩
  · unfold hepCollectionNew
    rw [c1]
    refine (Except.bind_ok' _ _).trans ?_
    simp only [hn]
    rw [heapOf_relatives c.relatives hr.writable, hlen, h4]
    rfl
  · simp only
    generalize hns : ((List.range e.tracks.length).map fun i => ((heapOf e.tracks.length P D) i).getD {}) = ns
    have hns' : ∀ (i : Nat) a, ns[i]? = some a → i < e.tracks.length ∧ a.parents = P i ∧ a.daughters = D i := by
      intro i a ha
      have hi : i < e.tracks.length := by
        rcases Nat.lt_or_ge i e.tracks.length with h | h
        · exact h
        · rw [List.getElem?_eq_none (by rw [← hns]; simpa using h)] at ha; cases ha
      rw [← hns, List.getElem?_map, List.getElem?_range hi] at ha
      simp only [Option.map_some, Option.some.injEq] at ha
      unfold heapOf at ha
      rw [if_pos hi] at ha
      subst ha
      exact ⟨hi, rfl, rfl⟩
    have hPi : ∀ (i : Nat) a, c.relatives[i]? = some a → P i = a.parents ++ (seenAt e i).filter fun k => k ∉ a.parents := by
      intro i a ha; rw [← hP]; simp only [ha, Option.getD_some]
    have hDi : ∀ (i : Nat) a, c.relatives[i]? = some a → D i = a.daughters ++ (List.range e.tracks.length).filter fun j => j ∉ a.daughters ∧ i ∈ seenAt e j := by
      intro i a ha; rw [← hD]; simp only [ha, Option.getD_some]
    have hseen : ∀ j, (seenAt e j).Nodup := by
      intro j; unfold seenAt
      cases e.tracks[j]? with
      | none => exact List.nodup_nil
      | some t => exact seen_nodup t
    refine ⟨by rw [← hns, hlen]; simp, ?_, ?_, ?_, ?_⟩
    · intro i j a b ha hb
      obtain ⟨hi, _, e1⟩ := hns' i a ha
      obtain ⟨hj, e2, _⟩ := hns' j b hb
      obtain ⟨a0, ha0⟩ := hget i hi
      obtain ⟨b0, hb0⟩ := hget j hj
      have hsym := hr.symmetric i j a0 b0 ha0 hb0
      rw [e1, e2, hPi j b0 hb0, hDi i a0 ha0]
      simp only [List.mem_append, List.mem_filter, List.mem_range, decide_eq_true_eq, hsym]
      constructor
      · rintro (h | ⟨_, h1, h2⟩)
        · exact Or.inl h
        · exact Or.inr ⟨h2, h1⟩
      · rintro (h | ⟨h1, h2⟩)
        · exact Or.inl h
        · exact Or.inr ⟨hj, h2, h1⟩
    · intro n hn
      obtain ⟨i, hi, hin⟩ := List.getElem_of_mem hn
      obtain ⟨hi', e1, e2⟩ := hns' i n (by rw [List.getElem?_eq_getElem hi, hin])
      obtain ⟨a0, ha0⟩ := hget i hi'
      obtain ⟨n1, n2⟩ := hr.nodup a0 (List.mem_of_getElem? ha0)
      rw [e1, e2, hPi i a0 ha0, hDi i a0 ha0]
      constructor
      · rw [List.nodup_append]
        refine ⟨n1, (hseen i).filter _, ?_⟩
        intro a ha b hb hab
        subst hab
        simp only [List.mem_filter, decide_eq_true_eq] at hb
        exact hb.2 ha
      · rw [List.nodup_append]
        refine ⟨n2, List.nodup_range.filter _, ?_⟩
        intro a ha b hb hab
        subst hab
        simp only [List.mem_filter, decide_eq_true_eq] at hb
        exact hb.2.1 ha
    · intro j t a b ht ha hb
      rw [(hns' j b hb).2.1, hPi j a ha]
      unfold seenAt
      rw [ht]; rfl
    · intro i a b ha hb
      rw [(hns' i b hb).2.2, hDi i a ha, hlen]
      rfl

end Util
