import Verif.Sio.Basic
/-
Ordered maps (`std::map`, `std::set`) as lists of entries in the order of iteration.
-/
namespace Lcio

/-- Equivalence of keys under a comparison: neither is less than the other. -/
def eqv {K : Type} (lt : K → K → Bool) (a b : K) : Bool := !lt a b && !lt b a

/-- `m.find(k)->second`: the value of the entry whose key is equivalent to `k`. (A `std::map` finds it by a tree search, which
gives the same result for a strict weak ordering.) -/
def omFind {K V : Type} (lt : K → K → Bool) (k : K) (m : List (K × V)) : Option V :=
  (m.find? fun e => eqv lt e.1 k).map (·.2)

/-- `m.insert({k, v})`, then on failure `it->second = v`: the new map, and whether the entry is new. An existing entry keeps
its key. This is also what `m[k] = v` does. -/
def omAssign {K V : Type} (lt : K → K → Bool) (k : K) (v : V) : List (K × V) → List (K × V) × Bool
  | [] => ([(k, v)], true)
  | (k', v') :: m =>
    if lt k k' then ((k, v) :: (k', v') :: m, true)
    else if lt k' k then ((k', v') :: (omAssign lt k v m).1, (omAssign lt k v m).2)
    else ((k', v) :: m, false)

/-- `m.insert({k, v})`: an existing entry is left alone. -/
def omInsert {K V : Type} (lt : K → K → Bool) (k : K) (v : V) : List (K × V) → List (K × V)
  | [] => [(k, v)]
  | (k', v') :: m =>
    if lt k k' then (k, v) :: (k', v') :: m
    else if lt k' k then (k', v') :: omInsert lt k v m
    else (k', v') :: m

/-- `m.erase(k)`. -/
def omErase {K V : Type} (lt : K → K → Bool) (k : K) (m : List (K × V)) : List (K × V) :=
  m.filter fun e => !eqv lt e.1 k

/-- What the C++ standard requires of the comparison of a map. -/
structure StrictWeak {K : Type} (lt : K → K → Bool) : Prop where
  irrefl : ∀ a, lt a a = false
  trans : ∀ a b c, lt a b = true → lt b c = true → lt a c = true
  incomp : ∀ a b c, eqv lt a b = true → eqv lt b c = true → eqv lt a c = true

/-- The entries are in strictly increasing order. -/
def Ordered {K V : Type} (lt : K → K → Bool) (m : List (K × V)) : Prop := m.Pairwise fun a b => lt a.1 b.1 = true

section
variable {K V : Type} {lt : K → K → Bool}

theorem eqv_refl (h : StrictWeak lt) (a : K) : eqv lt a a = true := by simp [eqv, h.irrefl]

theorem eqv_symm (a b : K) : eqv lt a b = eqv lt b a := by unfold eqv; rw [Bool.and_comm]

theorem StrictWeak.asymm (h : StrictWeak lt) (a b : K) (hab : lt a b = true) : lt b a = false := by
  cases hba : lt b a with
  | false => rfl
  | true => have := h.trans a b a hab hba; rw [h.irrefl] at this; cases this

theorem eqv_lt_left (h : StrictWeak lt) (a b c : K) (hab : eqv lt a b = true) (hbc : lt b c = true) : lt a c = true := by
  cases hac : lt a c with
  | true => rfl
  | false =>
    exfalso
    cases hca : lt c a with
    | true =>
      have := h.trans b c a hbc hca
      unfold eqv at hab; rw [this] at hab; simp at hab
    | false =>
      have e1 : eqv lt a c = true := by simp [eqv, hac, hca]
      have := h.incomp b a c (by rw [eqv_symm]; exact hab) e1
      unfold eqv at this; rw [hbc] at this; simp at this

theorem eqv_lt_right (h : StrictWeak lt) (a b c : K) (hab : lt a b = true) (hbc : eqv lt b c = true) : lt a c = true := by
  cases hac : lt a c with
  | true => rfl
  | false =>
    exfalso
    cases hca : lt c a with
    | true =>
      have := h.trans c a b hca hab
      unfold eqv at hbc; rw [this] at hbc; simp at hbc
    | false =>
      have e1 : eqv lt a c = true := by simp [eqv, hac, hca]
      have := h.incomp a c b e1 (by rw [eqv_symm]; exact hbc)
      unfold eqv at this; rw [hab] at this; simp at this

theorem omFind_assign (h : StrictWeak lt) (k k' : K) (v : V) (m : List (K × V)) :
    omFind lt k' (omAssign lt k v m).1 = if eqv lt k k' then some v else omFind lt k' m := by
  induction m with
  | nil =>
    simp only [omAssign, omFind, List.find?_cons, List.find?_nil]
    cases eqv lt k k' <;> rfl
  | cons e m ih =>
    obtain ⟨a, b⟩ := e
    unfold omAssign
    split
    · unfold omFind
      rw [List.find?_cons]
      cases eqv lt k k' <;> rfl
    · rename_i h1
      split
      · rename_i h2
        unfold omFind at ih ⊢
        simp only [List.find?_cons]
        cases ha : eqv lt a k' with
        | true =>
          have : eqv lt k k' = false := by
            cases hk : eqv lt k k' with
            | false => rfl
            | true =>
              have := h.incomp a k' k ha (by rw [eqv_symm]; exact hk)
              unfold eqv at this; rw [h2] at this; simp at this
          simp [this]
        | false => exact ih
      · rename_i h2
        have hak : eqv lt a k = true := by simp [eqv, h1, h2]
        unfold omFind
        simp only [List.find?_cons]
        have : eqv lt a k' = eqv lt k k' := by
          rw [Bool.eq_iff_iff]
          exact ⟨fun hh => h.incomp k a k' (by rw [eqv_symm]; exact hak) hh, fun hh => h.incomp a k k' hak hh⟩
        rw [this]
        cases eqv lt k k' <;> rfl

/-- The keys after an assignment. -/
theorem omAssign_keys (h : StrictWeak lt) (k : K) (v : V) (m : List (K × V)) (hm : Ordered lt m) :
    Ordered lt (omAssign lt k v m).1 ∧
    ((omAssign lt k v m).2 = true → ((omAssign lt k v m).1.map (·.1)).Perm (k :: m.map (·.1)) ∧ ∀ e ∈ m, eqv lt e.1 k = false) ∧
    ((omAssign lt k v m).2 = false → (omAssign lt k v m).1.map (·.1) = m.map (·.1) ∧ ∃ e ∈ m, eqv lt e.1 k = true) := by
  induction m with
  | nil => simp [omAssign, Ordered]
  | cons e m ih =>
    obtain ⟨a, b⟩ := e
    have hm' := List.pairwise_cons.1 hm
    obtain ⟨i1, i2, i3⟩ := ih hm'.2
    unfold omAssign
    split
    · rename_i h1
      refine ⟨?_, ?_, fun hh => by cases hh⟩
      · refine List.pairwise_cons.2 ⟨?_, hm⟩
        intro x hx
        rcases List.mem_cons.1 hx with rfl | hx
        · exact h1
        · exact h.trans _ _ _ h1 (hm'.1 x hx)
      · intro _
        refine ⟨List.Perm.refl _, ?_⟩
        intro x hx
        rcases List.mem_cons.1 hx with rfl | hx
        · simp [eqv, h1]
        · have := h.trans _ _ _ h1 (hm'.1 x hx)
          simp [eqv, this]
    · rename_i h1
      split
      · rename_i h2
        refine ⟨?_, ?_, ?_⟩
        · refine List.pairwise_cons.2 ⟨?_, i1⟩
          intro x hx
          simp only
          have hx' : x.1 ∈ (omAssign lt k v m).1.map (·.1) := List.mem_map_of_mem hx
          cases hb : (omAssign lt k v m).2 with
          | true =>
            rw [(i2 hb).1.mem_iff] at hx'
            rcases List.mem_cons.1 hx' with hx' | hx'
            · rw [hx']; exact h2
            · obtain ⟨y, hy, hxy⟩ := List.mem_map.1 hx'
              rw [← hxy]; exact hm'.1 y hy
          | false =>
            rw [(i3 hb).1] at hx'
            obtain ⟨y, hy, hxy⟩ := List.mem_map.1 hx'
            rw [← hxy]; exact hm'.1 y hy
        · intro hb
          refine ⟨?_, ?_⟩
          · simp only [List.map_cons]
            exact ((i2 hb).1.cons a).trans (List.Perm.swap _ _ _)
          · intro x hx
            rcases List.mem_cons.1 hx with rfl | hx
            · simp [eqv, h2]
            · exact (i2 hb).2 x hx
        · intro hb
          refine ⟨by simp only [List.map_cons]; rw [(i3 hb).1], ?_⟩
          obtain ⟨x, hx, hx2⟩ := (i3 hb).2
          exact ⟨x, List.mem_cons_of_mem _ hx, hx2⟩
      · rename_i h2
        refine ⟨?_, (fun hh => by cases hh), fun _ => ⟨rfl, _, List.mem_cons_self .., by simp [eqv, h1, h2]⟩⟩
        exact List.pairwise_cons.2 ⟨hm'.1, hm'.2⟩

end

end Lcio
