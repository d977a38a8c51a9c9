import Verif.Spec.Setters
/-
Lemmas about setters.
-/
namespace Lcio
open Sio Util Spec

theorem copyArray_ok {α : Type} {n : Nat} {v : List α} (h : n ≤ v.length) : copyArray n v = .ok (v.take n) := by
  simp only [copyArray, Nat.not_lt.mpr h, if_false]

/-- The word with one bit changed. -/
def wordWith (w : W32) (i : Nat) (b : Bool) : W32 := BitVec.ofBoolListLE ((List.range 32).map fun j => if j = i then b else w.getLsbD j)

theorem wordWith_bit (w : W32) (i : Nat) (b : Bool) (j : Nat) (hj : j < 32) : (wordWith w i b).getLsbD j = if j = i then b else w.getLsbD j := by
  refine (BitVec.getLsbD_ofBoolListLE ..).trans ?_
  simp [hj]

theorem or_bit (w : W32) (i : Nat) (hi : i < 32) : w ||| ((1 : W32) <<< i) = wordWith w i true := by
  apply BitVec.eq_of_getLsbD_eq
  intro j hj
  rw [wordWith_bit _ _ _ _ hj]
  by_cases h : j = i
  · subst h; simp [hj]
  · simp [h, hj]
    omega

theorem andNot_bit (w : W32) (i : Nat) (hi : i < 32) : w &&& ~~~((1 : W32) <<< i) = wordWith w i false := by
  apply BitVec.eq_of_getLsbD_eq
  intro j hj
  rw [wordWith_bit _ _ _ _ hj]
  by_cases h : j = i
  · subst h; simp [hj]
  · simp [h, hj]
    omega

theorem setWordBit_ok {bit : Int} (h : 0 ≤ bit ∧ bit < 32) (w : W32) (b : Bool) : setWordBit w bit b = .ok (wordWith w bit.toNat b) := by
  have h1 : ¬(bit < 0 ∨ 32 ≤ bit) := by omega
  have h2 : bit.toNat < 32 := by omega
  cases b
  · simp only [setWordBit, oneShl, h1, if_false, ← andNot_bit w _ h2]; rfl
  · simp only [setWordBit, oneShl, h1, if_false, ← or_bit w _ h2]; rfl

theorem setBitsetBit_ok {bit : Int} (h : 0 ≤ bit ∧ bit < 32) (w : W32) (b : Bool) : setBitsetBit w bit b = .ok (wordWith w bit.toNat b) := by
  have h1 : ¬(bit < 0 ∨ 32 ≤ bit) := by omega
  have h2 : bit.toNat < 32 := by omega
  cases b
  · simp only [setBitsetBit, unset_bit, bitsetPos, h1, if_false, ← andNot_bit w _ h2]; rfl
  · simp only [setBitsetBit, set_bit, bitsetPos, h1, if_false, ← or_bit w _ h2]; rfl

theorem setWordBit_16 (w : W32) (b : Bool) : setWordBit w 16 b = .ok (wordWith w 16 b) := setWordBit_ok (bit := 16) (by decide) w b
theorem setWordBit_17 (w : W32) (b : Bool) : setWordBit w 17 b = .ok (wordWith w 17 b) := setWordBit_ok (bit := 17) (by decide) w b
theorem setWordBit_18 (w : W32) (b : Bool) : setWordBit w 18 b = .ok (wordWith w 18 b) := setWordBit_ok (bit := 18) (by decide) w b
theorem setWordBit_30 (w : W32) (b : Bool) : setWordBit w 30 b = .ok (wordWith w 30 b) := setWordBit_ok (bit := 30) (by decide) w b
theorem setWordBit_31 (w : W32) (b : Bool) : setWordBit w 31 b = .ok (wordWith w 31 b) := setWordBit_ok (bit := 31) (by decide) w b
theorem setBitsetBit_23 (w : W32) (b : Bool) : setBitsetBit w 23 b = .ok (wordWith w 23 b) := setBitsetBit_ok (bit := 23) (by decide) w b
theorem setBitsetBit_24 (w : W32) (b : Bool) : setBitsetBit w 24 b = .ok (wordWith w 24 b) := setBitsetBit_ok (bit := 24) (by decide) w b
theorem setBitsetBit_25 (w : W32) (b : Bool) : setBitsetBit w 25 b = .ok (wordWith w 25 b) := setBitsetBit_ok (bit := 25) (by decide) w b
theorem setBitsetBit_26 (w : W32) (b : Bool) : setBitsetBit w 26 b = .ok (wordWith w 26 b) := setBitsetBit_ok (bit := 26) (by decide) w b
theorem setBitsetBit_27 (w : W32) (b : Bool) : setBitsetBit w 27 b = .ok (wordWith w 27 b) := setBitsetBit_ok (bit := 27) (by decide) w b
theorem setBitsetBit_28 (w : W32) (b : Bool) : setBitsetBit w 28 b = .ok (wordWith w 28 b) := setBitsetBit_ok (bit := 28) (by decide) w b
theorem setBitsetBit_29 (w : W32) (b : Bool) : setBitsetBit w 29 b = .ok (wordWith w 29 b) := setBitsetBit_ok (bit := 29) (by decide) w b
theorem setBitsetBit_30 (w : W32) (b : Bool) : setBitsetBit w 30 b = .ok (wordWith w 30 b) := setBitsetBit_ok (bit := 30) (by decide) w b
theorem setBitsetBit_31 (w : W32) (b : Bool) : setBitsetBit w 31 b = .ok (wordWith w 31 b) := setBitsetBit_ok (bit := 31) (by decide) w b

theorem contains_if (l : List Nat) (v : Nat) : (if l.contains v = true then l else l ++ [v]) = if v ∈ l then l else l ++ [v] := by
  simp only [List.contains_iff_mem]

end Lcio

/-- One setter: the object afterwards is computed, and every getter is looked at. -/
macro "setter_close" : tactic => `(tactic| (refine ⟨_, rfl, rfl, ?_⟩; intro g hg; cases g <;> first | rfl | exact absurd rfl hg))
/-- One setter: with the argument of an array or the number of a bit. -/
syntax "setter_case" ident (ppSpace ident)* : tactic
macro_rules
  | `(tactic| setter_case $c) => `(tactic| first | setter_close | (simp only [Spec.SetsOne, $c:ident, Lcio.setWordBit_16, Lcio.setWordBit_17, Lcio.setWordBit_18, Lcio.setWordBit_30, Lcio.setWordBit_31, Lcio.setBitsetBit_23, Lcio.setBitsetBit_24, Lcio.setBitsetBit_25, Lcio.setBitsetBit_26, Lcio.setBitsetBit_27, Lcio.setBitsetBit_28, Lcio.setBitsetBit_29, Lcio.setBitsetBit_30, Lcio.setBitsetBit_31, Bool.false_eq_true, if_false]; setter_close))
  | `(tactic| setter_case $c $d $u) => `(tactic| first | setter_close | (simp only [$d:ident] at $u:ident; simp only [Spec.SetsOne, $c:ident, Lcio.copyArray_ok $u, Bool.false_eq_true, if_false]; setter_close) | (simp only [$d:ident] at $u:ident; simp only [Spec.SetsOne, $c:ident, Lcio.setWordBit_ok $u, Lcio.setBitsetBit_ok $u, Bool.false_eq_true, if_false]; setter_close) | (simp only [Spec.SetsOne, $c:ident, Lcio.setWordBit_16, Lcio.setWordBit_17, Lcio.setWordBit_18, Lcio.setWordBit_30, Lcio.setWordBit_31, Lcio.setBitsetBit_23, Lcio.setBitsetBit_24, Lcio.setBitsetBit_25, Lcio.setBitsetBit_26, Lcio.setBitsetBit_27, Lcio.setBitsetBit_28, Lcio.setBitsetBit_29, Lcio.setBitsetBit_30, Lcio.setBitsetBit_31, Lcio.contains_if, Bool.false_eq_true, if_false]; setter_close))
