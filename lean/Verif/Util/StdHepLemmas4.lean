import Verif.Util.StdHepLemmas3
/-
Lemmas about parents and daughters of the particles made of a StdHep event.
-/
namespace Util
open Sio Spec Lcio

/-- A memory with `n` particles with these parents and daughters. -/
def heapOf (n : Nat) (P D : Nat → List Nat) : PHeap := fun a => if a < n then some { parents := P a, daughters := D a } else none

def updAt (f : Nat → List Nat) (a : Nat) (l : List Nat) : Nat → List Nat := fun b => if b = a then l else f b

theorem addParent_heap (n : Nat) (P D : Nat → List Nat) (j i : Nat) (hj : j < n) (hi : i < n) (hp : i ∉ P j) :
    (addParent (heapOf n P D) j i).2 = heapOf n (updAt P j (P j ++ [i])) (updAt D i (D i ++ [j])) := by
  have h1 : heapOf n P D j = some { parents := P j, daughters := D j } := if_pos hj
  unfold addParent
  rw [h1]
  simp only [Bool.false_eq_true, if_false]
  rw [if_neg (by simpa using hp)]
  by_cases hij : i = j
  · subst hij
    have h2 : (heapOf n P D).set i { parents := P i ++ [i], daughters := D i } i = some { parents := P i ++ [i], daughters := D i } := by simp [PHeap.set]
    rw [h2]
    simp only [addDaughter, Bool.false_eq_true, if_false]
    funext a
    by_cases ha : a = i
    · subst ha; simp [PHeap.set, heapOf, updAt, hj]
    · simp [PHeap.set, heapOf, updAt, ha]
  · have h2 : (heapOf n P D).set j { parents := P j ++ [i], daughters := D j } i = some { parents := P i, daughters := D i } := by
      simp [PHeap.set, hij, heapOf, hi]
    rw [h2]
    simp only [addDaughter, Bool.false_eq_true, if_false]
    funext a
    by_cases ha : a = i
    · subst ha; simp [PHeap.set, heapOf, updAt, hi, hij]
    · by_cases ha' : a = j
      · subst ha'; simp [PHeap.set, heapOf, updAt, hj, ha]
      · simp [PHeap.set, heapOf, updAt, ha, ha']

theorem hepLink_heap (n : Nat) (P D : Nat → List Nat) (j i : Nat) (hj : j < n) (hi : i < n) (hp : i ∉ P j) :
    hepLink n i (heapOf n P D) (j : Int) = .ok (heapOf n (updAt P j (P j ++ [i])) (updAt D i (D i ++ [j]))) := by
  have h1 : heapOf n P D j = some { parents := P j, daughters := D j } := if_pos hj
  unfold hepLink
  rw [if_neg (by omega), Int.toNat_natCast, h1]
  simp only
  rw [if_neg (by simpa using hp), addParent_heap n P D j i hj hi hp]

/-- All particles of a list get a parent. -/
theorem linkAll (n : Nat) (i : Nat) (hi : i < n) : ∀ (js : List Nat) (P D : Nat → List Nat), js.Nodup → (∀ j ∈ js, j < n ∧ i ∉ P j) →
    js.foldlM (fun h (j : Nat) => hepLink n i h (j : Int)) (heapOf n P D) =
      .ok (heapOf n (fun j => if j ∈ js then P j ++ [i] else P j) (updAt D i (D i ++ js))) := by
  intro js
  induction js with
  | nil =>
    intro P D _ _
    show Except.ok _ = _
    congr 2
    · funext a; simp [updAt]; intro h; rw [h]
  | cons j js ih =>
    intro P D hn hb
    rw [List.foldlM_cons, hepLink_heap n P D j i (hb j (by simp)).1 hi (hb j (by simp)).2]
    rw [List.nodup_cons] at hn
    have := ih (updAt P j (P j ++ [i])) (updAt D i (D i ++ [j])) hn.2 fun k hk => by
      have hne : k ≠ j := fun h => hn.1 (h ▸ hk)
      exact ⟨(hb k (by simp [hk])).1, by simpa [updAt, hne] using (hb k (by simp [hk])).2⟩
    refine this.trans ?_
    congr 2
    · funext a
      by_cases ha : a = j
      · subst ha; simp [updAt, hn.1]
      · simp [updAt, ha]
    · funext a
      by_cases ha : a = i
      · subst ha; simp [updAt]
      · simp [updAt, ha]

theorem tmod_small (d : Int) (h0 : 0 < d) (h : d < 10000) : d.tmod 10000 = d := Int.tmod_eq_of_lt (by omega) h

theorem tmod_neg (d : Int) (h : d ≤ 0) : d.tmod 10000 ≤ 0 := by
  have h1 : d = -(-d) := by omega
  rw [h1, Int.neg_tmod]
  have := Int.tmod_nonneg 10000 (show 0 ≤ -d by omega)
  omega

theorem listed_nodup (t : LTrack) : (listed t).Nodup := by
  unfold listed
  split
  · split
    · exact List.nodup_range'
    · rename_i h1 h2
      simp only [List.nodup_cons, List.mem_singleton, List.not_mem_nil, not_false_eq_true, List.nodup_nil, and_true]
      omega
  · split
    · simp
    · simp

theorem listed_lt (t : LTrack) (n : Nat) (h1 : t.daughter1 ≤ n) (h2 : t.daughter2 ≤ n) : ∀ j ∈ listed t, j < n := by
  intro j hj
  unfold listed at hj
  split at hj
  · split at hj
    · rw [List.mem_range'_1] at hj; omega
    · simp at hj; omega
  · split at hj
    · simp at hj; omega
    · simp at hj

theorem foldlM_map_range {β : Type} (f : β → Int → Except Err β) (a : Int) (b : Nat) (ha : a = b) : ∀ (n : Nat) (h : β),
    (List.range n).foldlM (fun h k => f h (a + (k : Nat))) h = (List.range' b n).foldlM (fun h (j : Nat) => f h (j : Int)) h := by
  intro n h
  subst ha
  have : List.range' b n = (List.range n).map (b + ·) := by rw [List.range_eq_range', List.map_add_range']; rfl
  rw [this, List.foldlM_map]
  rfl

theorem hepDaughters_eq (n i : Nat) (h : PHeap) (t : LTrack) (h1 : t.daughter1 ≤ n) (h2 : t.daughter1 < 10000) (h3 : t.daughter2 < 10000) :
    hepDaughters n i h t.daughter1 t.daughter2 = (listed t).foldlM (fun h (j : Nat) => hepLink n i h (j : Int)) h := by
  unfold hepDaughters listed
  by_cases c1 : 0 < t.daughter1
  · rw [tmod_small _ c1 h2]
    by_cases c2 : 0 < t.daughter2
    · rw [tmod_small _ c2 h3]
      rw [if_pos (show t.daughter1 - 1 > -1 ∧ t.daughter2 - 1 > -1 by omega), if_pos (show 0 < t.daughter1 ∧ 0 < t.daughter2 from ⟨c1, c2⟩)]
      by_cases c3 : t.daughter1 ≤ t.daughter2
      · rw [if_pos (show t.daughter2 - 1 ≥ t.daughter1 - 1 by omega), if_pos c3, foldlM_map_range _ _ (t.daughter1 - 1).toNat (by omega)]
        rw [show t.daughter2 - 1 - (t.daughter1 - 1) + 1 = t.daughter2 - t.daughter1 + 1 by omega]
      · rw [if_neg (show ¬ t.daughter2 - 1 ≥ t.daughter1 - 1 by omega), if_neg c3]
        simp only [List.foldlM_cons, List.foldlM_nil]
        rw [show (((t.daughter1 - 1).toNat : Nat) : Int) = t.daughter1 - 1 by omega, show (((t.daughter2 - 1).toNat : Nat) : Int) = t.daughter2 - 1 by omega]
        cases hepLink n i h (t.daughter1 - 1) with
        | error e => rfl
        | ok h' =>
          show hepLink n i h' _ = (hepLink n i h' _ >>= pure)
          cases hepLink n i h' (t.daughter2 - 1) <;> rfl
    · have := tmod_neg t.daughter2 (by omega)
      rw [if_neg (by omega), if_pos (by omega), if_pos (by omega), if_neg (by omega), if_pos c1]
      simp only [List.foldlM_cons, List.foldlM_nil]
      rw [show (((t.daughter1 - 1).toNat : Nat) : Int) = t.daughter1 - 1 by omega]
      cases hepLink n i h (t.daughter1 - 1) <;> rfl
  · have := tmod_neg t.daughter1 (by omega)
    rw [if_neg (by omega), if_neg (by omega), if_neg (by omega), if_neg c1]
    rfl

theorem Except.bind_ok' {α β : Type} (a : α) (f : α → Except Err β) : (Except.ok a >>= f) = f a := rfl

/-- Parents of a particle among the first `m`. -/
def parentsTo (e : HepEvent) (m j : Nat) : List Nat := (List.range m).filter fun i => ListsAs e i j

/-- Daughters of the first `m` particles. -/
def daughtersTo (e : HepEvent) (m i : Nat) : List Nat := if i < m then ((e.tracks[i]?).map listed).getD [] else []

theorem secondLoop (ev : LEvent) (e : HepEvent) (h : EventIs ev e) (hu : Usable e) :
    (List.range e.tracks.length).foldlM (fun (h : PHeap) i => do
      let d1 ← element ev.jdahep (i + i + 0)
      let d2 ← element ev.jdahep (i + i + 1)
      hepDaughters e.tracks.length i h d1 d2) (fun a => if a < e.tracks.length then some {} else none) =
    .ok (heapOf e.tracks.length (parentsTo e e.tracks.length) (daughtersTo e e.tracks.length)) := by
  have key : ∀ m, m ≤ e.tracks.length → (List.range m).foldlM (fun (h : PHeap) i => do
      let d1 ← element ev.jdahep (i + i + 0)
      let d2 ← element ev.jdahep (i + i + 1)
      hepDaughters e.tracks.length i h d1 d2) (fun a => if a < e.tracks.length then some {} else none) =
    .ok (heapOf e.tracks.length (parentsTo e m) (daughtersTo e m)) := by
    intro m
    induction m with
    | zero =>
      intro _
      show Except.ok _ = _
      congr 1
    | succ m ih =>
      intro hm
      have ht := List.getElem?_eq_getElem (l := e.tracks) (i := m) hm
      generalize hte : e.tracks[m] = t at ht
      have hmem : t ∈ e.tracks := hte ▸ List.getElem_mem hm
      obtain ⟨_, b1, b2, _, b3, b4⟩ := hu.daughters t hmem
      rw [List.range_succ, List.foldlM_append, ih (by omega)]
      simp only [List.foldlM_cons, List.foldlM_nil]
      refine (Except.bind_ok' _ _).trans ?_
      have hd := fun j b hj hb => element_chunk 2 (fun t : LTrack => [t.daughter1, t.daughter2]) (fun _ => rfl) e.tracks m j hj t b ht hb
      rw [h.daughters, show m + m = m * 2 by omega, hd 0 t.daughter1 (by decide) rfl, hd 1 t.daughter2 (by decide) rfl]
      show (hepDaughters e.tracks.length m _ t.daughter1 t.daughter2 >>= pure) = _
      rw [hepDaughters_eq _ _ _ t b1 b2 b4, linkAll _ m hm (listed t) _ _ (listed_nodup t) fun j hj => ⟨listed_lt t _ b1 b3 j hj, by
        unfold parentsTo; simp⟩]
      show Except.ok _ = _
      congr 2
      · funext j
        unfold parentsTo
        rw [List.range_succ, List.filter_append]
        have hl : ListsAs e m j ↔ j ∈ listed t := ⟨fun ⟨t', h1, h2⟩ => by rw [ht] at h1; cases h1; exact h2, fun hj => ⟨t, ht, hj⟩⟩
        by_cases hj : j ∈ listed t
        · rw [if_pos hj, List.filter_cons_of_pos (by simpa using hl.2 hj)]; rfl
        · rw [if_neg hj, List.filter_cons_of_neg (by simpa using fun hh => hj (hl.1 hh))]; simp
      · funext i
        unfold updAt daughtersTo
        by_cases hi : i = m
        · subst hi; simp [ht]
        · rw [if_neg hi]
          by_cases hi' : i < m
          · rw [if_pos hi', if_pos (by omega)]
          · rw [if_neg hi', if_neg (by omega)]
  exact key _ (Nat.le_refl _)

end Util
