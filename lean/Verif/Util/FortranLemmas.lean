import Verif.Util.Fortran
/-
Lemmas about the loops of the Fortran interface.
-/
namespace Fort
open Sio Lcio

theorem putAll_ok {α : Type} (vec : List α) : ∀ (a : List α) (i : Nat), i + vec.length ≤ a.length →
    putAll a i vec = .ok (a.take i ++ vec ++ a.drop (i + vec.length)) := by
  induction vec with
  | nil => intro a i _; simp [putAll]
  | cons x xs ih =>
    intro a i h
    simp only [List.length_cons] at h
    have hi : i < a.length := by omega
    have h1 : put a i x = .ok (a.set i x) := by unfold put; rw [if_pos hi]
    simp only [putAll, h1]
    rw [ih (a.set i x) (i + 1) (by rw [List.length_set]; omega)]
    congr 1
    rw [List.drop_set_of_lt (by omega), List.length_cons, show i + 1 + xs.length = i + (xs.length + 1) by omega]
    congr 1
    rw [show x :: xs = [x] ++ xs from rfl, ← List.append_assoc]
    congr 1
    apply List.ext_getElem?
    intro j
    rw [List.getElem?_take, List.getElem?_set, List.getElem?_append, List.length_take, Nat.min_eq_left (by omega), List.getElem?_take]
    by_cases h1 : j < i
    · rw [if_pos (by omega), if_neg (by omega), if_pos h1, if_pos h1]
    · rw [if_neg h1]
      by_cases h2 : j = i
      · subst h2; simp [hi]
      · rw [if_neg (by omega), List.getElem?_eq_none (by simp; omega)]

theorem putAll_error {α : Type} (vec : List α) : ∀ (a : List α) (i : Nat), vec ≠ [] → i + vec.length > a.length → putAll a i vec = .error .ub := by
  induction vec with
  | nil => intro a i h; exact absurd rfl h
  | cons x xs ih =>
    intro a i _ h
    simp only [List.length_cons] at h
    unfold putAll put
    by_cases hi : i < a.length
    · rw [if_pos hi]
      simp only
      have : xs ≠ [] := by rintro rfl; simp at h; omega
      exact ih _ _ this (by rw [List.length_set]; omega)
    · rw [if_neg hi]

theorem cut_nul (s : Str) (h : (0 : Byte) ∉ s) (t : List Byte) : cut (s ++ 0 :: t) = s := by
  induction s with
  | nil => simp [cut]
  | cons x xs ih =>
    have hx : x ≠ 0 := fun e => h (by simp [e])
    have := ih (fun e => h (by simp [e]))
    unfold cut at this ⊢
    rw [List.cons_append, List.takeWhile_cons, if_pos (by simpa using hx), this]

theorem cut_of_not_mem (s : Str) (h : (0 : Byte) ∉ s) : cut s = s := by
  induction s with
  | nil => rfl
  | cons x xs ih =>
    have hx : x ≠ 0 := fun e => h (by simp [e])
    have := ih (fun e => h (by simp [e]))
    unfold cut at this ⊢
    rw [List.takeWhile_cons, if_pos (by simpa using hx), this]

theorem cut_length (s : Str) : (cut s).length ≤ s.length := (List.takeWhile_sublist _).length_le

theorem strcpy_ok (buf : List Byte) (pos : Nat) (s : Str) (hs : (0 : Byte) ∉ s) (h : pos + s.length < buf.length) :
    strcpy buf pos s = .ok (buf.take pos ++ (s ++ [0]) ++ buf.drop (pos + s.length + 1)) := by
  unfold strcpy
  rw [cut_of_not_mem s hs, putAll_ok _ _ _ (by simp; omega)]
  simp [Nat.add_assoc]

theorem strcpy_error (buf : List Byte) (pos : Nat) (s : Str) (hs : (0 : Byte) ∉ s) (h : ¬ pos + s.length < buf.length) : strcpy buf pos s = .error .ub := by
  unfold strcpy
  rw [cut_of_not_mem s hs, putAll_error _ _ _ (by simp) (by simp; omega)]

/-- Writing strings that fit: what is in front of them and behind them is kept, and reading gives them back. -/
theorem putStrings_ok (e : Nat) (ss : List Str) : ∀ (buf : List Byte) (pos : Nat), (∀ s ∈ ss, s.length < e ∧ (0 : Byte) ∉ s) → pos + ss.length * e ≤ buf.length →
    ∃ buf', putStrings e buf pos ss = .ok buf' ∧ buf'.length = buf.length ∧ buf'.take pos = buf.take pos ∧ buf'.drop (pos + ss.length * e) = buf.drop (pos + ss.length * e) ∧
      readStrings e buf' pos ss.length = .ok ss := by
  induction ss with
  | nil => intro buf pos _ _; exact ⟨buf, rfl, rfl, rfl, rfl, rfl⟩
  | cons s ss ih =>
    intro buf pos hs hl
    obtain ⟨h1, h2⟩ := hs s (by simp)
    rw [List.length_cons, Nat.add_mul, Nat.one_mul] at hl
    have hc := strcpy_ok buf pos s h2 (by omega)
    generalize hb : buf.take pos ++ (s ++ [0]) ++ buf.drop (pos + s.length + 1) = b1 at hc
    have hb1 : b1.length = buf.length := by
      rw [← hb]; simp only [List.length_append, List.length_take, List.length_drop, List.length_cons, List.length_nil]; omega
    obtain ⟨b2, g1, g2, g3, g4, g5⟩ := ih b1 (pos + e) (fun x hx => hs x (by simp [hx])) (by omega)
    have hpos : (buf.take pos).length = pos := by rw [List.length_take]; omega
    refine ⟨b2, ?_, by omega, ?_, ?_, ?_⟩
    · unfold putStrings; rw [hc]; exact g1
    · have : (b2.take (pos + e)).take pos = (b1.take (pos + e)).take pos := by rw [g3]
      rw [List.take_take, List.take_take, Nat.min_eq_left (by omega)] at this
      rw [this, ← hb, List.append_assoc, List.take_append_of_le_length (by omega), List.take_take, Nat.min_self]
    · rw [List.length_cons, Nat.add_mul, Nat.one_mul, show pos + (ss.length * e + e) = pos + e + ss.length * e by omega, g4, ← hb, List.drop_append, List.drop_append]
      rw [List.drop_eq_nil_of_le (by omega), List.drop_eq_nil_of_le (by simp; omega)]
      simp only [List.nil_append, List.drop_drop]
      congr 1
      simp only [List.length_append, hpos, List.length_cons, List.length_nil]
      omega
    · have hd : ∃ t, b2.drop pos = s ++ 0 :: t := by
        have : (b2.take (pos + e)).drop pos = (b1.take (pos + e)).drop pos := by rw [g3]
        have h3 : b2.drop pos = (b2.take (pos + e)).drop pos ++ b2.drop (pos + e) := by
          conv => lhs; rw [← List.take_append_drop (pos + e) b2]
          rw [List.drop_append_of_le_length (by rw [List.length_take]; omega)]
        rw [this, ← hb, List.append_assoc, List.take_append, List.drop_append, hpos] at h3
        rw [List.drop_eq_nil_of_le (as := List.take (pos + e) (List.take pos buf)) (by rw [List.length_take]; omega), List.nil_append, List.length_take] at h3
        rw [show pos - min (pos + e) (buf.take pos).length = 0 by omega, List.drop_zero, show pos + e - pos = e by omega, List.take_append,
          List.take_of_length_le (by simp; omega)] at h3
        exact ⟨_, by rw [h3, List.append_assoc, List.append_assoc]; rfl⟩
      obtain ⟨t, ht⟩ := hd
      have hst : stringAt b2 pos = .ok s := by
        unfold stringAt
        rw [ht, if_pos (by simp), cut_nul s h2]
      simp only [List.length_cons, readStrings, hst, g5]

theorem strcpy_length (buf : List Byte) (pos : Nat) (s : Str) (b : List Byte) (h : strcpy buf pos s = .ok b) : b.length = buf.length := by
  unfold strcpy at h
  by_cases hl : pos + (cut s ++ [0]).length ≤ buf.length
  · rw [putAll_ok _ _ _ hl] at h
    cases h
    simp only [List.length_append, List.length_take, List.length_drop, List.length_cons, List.length_nil] at hl ⊢
    omega
  · rw [putAll_error _ _ _ (by simp) (by omega)] at h; cases h

theorem strcpy_cases (buf : List Byte) (pos : Nat) (s : Str) : strcpy buf pos s = .error .ub ∨ ∃ b, strcpy buf pos s = .ok b ∧ b.length = buf.length ∧ pos < buf.length := by
  by_cases hl : pos + (cut s ++ [0]).length ≤ buf.length
  · right
    have := putAll_ok (cut s ++ [0]) buf pos hl
    refine ⟨_, this, strcpy_length buf pos s _ this, ?_⟩
    simp at hl; omega
  · left; exact putAll_error _ _ _ (by simp) (by omega)

/-- With more strings than there is room for. -/
theorem putStrings_error (e : Nat) (s : Str) (ss : List Str) : ∀ (buf : List Byte) (pos : Nat), buf.length ≤ pos + ss.length * e → putStrings e buf pos (s :: ss) = .error .ub := by
  induction ss generalizing s with
  | nil =>
    intro buf pos h
    simp at h
    rcases strcpy_cases buf pos s with h1 | ⟨b, h1, h2, h3⟩
    · simp only [putStrings, h1]
    · omega
  | cons t ts ih =>
    intro buf pos h
    rw [List.length_cons, Nat.add_mul, Nat.one_mul] at h
    rcases strcpy_cases buf pos s with h1 | ⟨b, h1, h2, h3⟩
    · simp only [putStrings, h1]
    · rw [putStrings, h1]
      exact ih t b (pos + e) (by omega)

end Fort
