import Verif.Spec.Memory
import Verif.Lcio.ParamsLemmas
/-
Lemmas about events in memory and about parameters.
-/
namespace Lcio
open Sio Spec

theorem before_of_strLt (a b : Str) (h : strLt a b = true) : Before a b := by
  induction a generalizing b with
  | nil =>
    cases b with
    | nil => simp [strLt] at h
    | cons c r => exact .inl ⟨c, r, rfl⟩
  | cons x a ih =>
    cases b with
    | nil => simp [strLt] at h
    | cons y b =>
      unfold strLt at h
      split at h
      · rename_i hxy
        exact .inr ⟨[], x, y, a, b, rfl, rfl, by rw [UInt8.lt_iff_toNat_lt] at hxy; exact hxy⟩
      · rename_i hxy
        split at h
        · cases h
        · rename_i hyx
          have : x = y := by
            rw [UInt8.lt_iff_toNat_lt] at hxy hyx
            rw [← UInt8.toNat_inj]; omega
          subst this
          rcases ih b h with ⟨c, r, rfl⟩ | ⟨p, u, v, r, s, rfl, rfl, hlt⟩
          · exact .inl ⟨c, r, rfl⟩
          · exact .inr ⟨x :: p, u, v, r, s, rfl, rfl, hlt⟩

theorem omFind_none_str {V : Type} (k : Str) (m : List (Str × V)) : omFind strLt k m = none ↔ k ∉ m.map (·.1) := by
  rw [omFind_str]
  simp only [Option.map_eq_none_iff, List.find?_eq_none, beq_iff_eq, List.mem_map, not_exists, not_and]

theorem lists_keys {V : Type} (m : List (Str × V)) (ho : Ordered strLt m) : Lists (m.map (·.1)) fun n => omFind strLt n m ≠ none := by
  refine ⟨?_, ?_⟩
  · rw [List.pairwise_map]
    exact ho.imp fun h => before_of_strLt _ _ h
  · intro x
    show x ∈ _ ↔ ¬ (omFind strLt x m = none)
    rw [omFind_none_str]
    exact Decidable.not_not.symm

theorem omFind_assign_str {V : Type} (k k' : Str) (v : V) (m : List (Str × V)) :
    omFind strLt k' (omAssign strLt k v m).1 = if k' = k then some v else omFind strLt k' m := by
  rw [omFind_assign strWeak]
  by_cases h : k' = k
  · rw [if_pos h, if_pos ((eqv_str _ _).2 h.symm)]
  · rw [if_neg h, if_neg (fun h' => h ((eqv_str _ _).1 h').symm)]

theorem ordered_assign {V : Type} (k : Str) (v : V) (m : List (Str × V)) (ho : Ordered strLt m) : Ordered strLt (omAssign strLt k v m).1 :=
  (omAssign_keys strWeak k v m ho).1

theorem ordered_erase {V : Type} (k : Str) (m : List (Str × V)) (ho : Ordered strLt m) : Ordered strLt (omErase strLt k m) := by
  unfold omErase; exact List.Pairwise.filter _ ho

theorem omFind_erase {V : Type} (k k' : Str) (m : List (Str × V)) :
    omFind strLt k' (omErase strLt k m) = if k' = k then none else omFind strLt k' m := by
  unfold omErase
  rw [omFind_str, omFind_str]
  induction m with
  | nil => simp
  | cons e m ih =>
    rw [List.filter_cons]
    by_cases h : eqv strLt e.1 k = true
    · rw [h]
      simp only [Bool.not_true, Bool.false_eq_true, ↓reduceIte]
      rw [ih]
      by_cases hk : k' = k
      · simp [hk]
      · have he : e.1 ≠ k' := fun h' => hk (h' ▸ (eqv_str _ _).1 h)
        rw [if_neg hk, if_neg hk, List.find?_cons, beq_eq_false_iff_ne.2 he]
    · have : eqv strLt e.1 k = false := by simpa using h
      rw [this]
      simp only [Bool.not_false, ↓reduceIte, List.find?_cons]
      have he : e.1 ≠ k := fun h' => h ((eqv_str _ _).2 h')
      by_cases hk : e.1 = k'
      · subst hk
        simp [he]
      · rw [beq_eq_false_iff_ne.2 hk]
        exact ih

/-- The event looks like `v`. -/
structure Shows (e : EventObj) (v : EventView) : Prop where
  ordered : Ordered strLt e.colMap
  cols : ∀ n, omFind strLt n e.colMap = v.cols n
  readOnly : e.readOnly = v.readOnly

end Lcio
