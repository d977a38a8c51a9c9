import Verif.Util.RemoveLoop
/-
C123: removing the selected elements of a collection.
-/
namespace Props
open Sio Lcio Util

/-- The body of the loops at an element. -/
theorem removeIf_at (ro : Bool) (sel : Nat → Bool) (o : ColObj) (a : List Nat) (x : Nat) (b : List Nat) (h : o.elems = a ++ x :: b) :
    removeIf ro sel o a.length = if sel x then if ro then .error .readOnly else .ok (true, { o with elems := a ++ b }) else .ok (false, o) := by
  have e1 : o.elems[a.length]? = some x := by rw [h]; simp
  have e2 : o.elems.eraseIdx a.length = a ++ b := by rw [h, List.eraseIdx_append_of_length_le (Nat.le_refl _)]; simp
  have e3 : a.length < o.elems.length := by rw [h]; simp
  unfold removeIf colElementAt
  rw [e1]
  cases hs : sel x with
  | false => simp [hs]
  | true =>
    cases ro with
    | true => simp [hs, ColObj.change]
    | false => simp [hs, ColObj.change, e2, e3]

theorem removeDown_filter (sel : Nat → Bool) (n : Nat) : ∀ (o : ColObj) (a b : List Nat), a.length = n → o.elems = a ++ b →
    removeDown false sel n o = .ok { o with elems := a.filter (fun e => !sel e) ++ b } := by
  induction n with
  | zero =>
    intro o a b ha h
    obtain rfl := List.length_eq_zero_iff.1 ha
    simp only [removeDown, List.filter_nil, List.nil_append] at h ⊢
    rw [← h]
  | succ n ih =>
    intro o a b ha h
    obtain ⟨a', x, rfl⟩ : ∃ a' x, a = a' ++ [x] := ⟨a.dropLast, a.getLast (by rintro rfl; simp at ha), (List.dropLast_concat_getLast _).symm⟩
    have ha' : a'.length = n := by simpa using ha
    have h' : o.elems = a' ++ x :: b := by rw [h]; simp
    have e := removeIf_at false sel o a' x b h'
    rw [ha'] at e
    rw [removeDown, e]
    cases hs : sel x with
    | true =>
      simp only [if_true, Bool.false_eq_true, if_false]
      rw [ih { o with elems := a' ++ b } a' b ha' rfl]
      simp [List.filter_append, hs]
    | false =>
      simp only [Bool.false_eq_true, if_false]
      rw [ih o a' (x :: b) ha' h']
      simp [List.filter_append, hs]

/-- **C123**: a program that goes through a collection from the end and removes the elements it selects, removes just these; the others are kept in their order. -/
theorem C123_from_end (sel : Nat → Bool) (o : ColObj) : removeDown false sel o.elems.length o = .ok { o with elems := o.elems.filter fun e => !sel e } := by
  have := removeDown_filter sel o.elems.length o o.elems [] rfl (by simp)
  simpa using this

theorem removeStay_filter (sel : Nat → Bool) (b : List Nat) : ∀ (o : ColObj) (a : List Nat) (n : Nat), b.length < n → o.elems = a ++ b →
    removeStay false sel n a.length o = .ok { o with elems := a ++ b.filter fun e => !sel e } := by
  induction b with
  | nil =>
    intro o a n hn h
    cases n with
    | zero => simp at hn
    | succ n =>
      rw [List.append_nil] at h
      rw [removeStay, if_neg (by rw [h]; omega), List.filter_nil, List.append_nil, ← h]
  | cons x b ih =>
    intro o a n hn h
    cases n with
    | zero => simp at hn
    | succ n =>
      have hn' : b.length < n := by simpa using hn
      rw [removeStay, if_pos (by rw [h]; simp), removeIf_at false sel o a x b h]
      cases hs : sel x with
      | true =>
        simp only [if_true, Bool.false_eq_true, if_false]
        rw [ih { o with elems := a ++ b } a n hn' rfl]
        simp [hs]
      | false =>
        simp only [Bool.false_eq_true, if_false]
        have := ih o (a ++ [x]) n hn' (by rw [h]; simp)
        rw [List.length_append, List.length_singleton] at this
        rw [this]
        simp [hs]

/-- **C123**: the same for a program that begins at the first element and goes to the next one only if the element was not removed. -/
theorem C123_stay (sel : Nat → Bool) (o : ColObj) (n : Nat) (hn : o.elems.length < n) : removeStay false sel n 0 o = .ok { o with elems := o.elems.filter fun e => !sel e } := by
  have := removeStay_filter sel o.elems o [] n hn (by simp)
  simpa using this

/-- **C123**: a collection that is read-only is not changed. If an element is selected, an exception says so. -/
theorem C123_read_only (sel : Nat → Bool) (o : ColObj) :
    ((∃ e ∈ o.elems, sel e = true) → removeDown true sel o.elems.length o = .error .readOnly) ∧ ((∀ e ∈ o.elems, sel e = false) → removeDown true sel o.elems.length o = .ok o) := by
  have h : ∀ (n : Nat) (a b : List Nat), a.length = n → o.elems = a ++ b → ((∃ e ∈ a, sel e = true) → removeDown true sel n o = .error .readOnly) ∧ ((∀ e ∈ a, sel e = false) → removeDown true sel n o = .ok o) := by
    intro n
    induction n with
    | zero =>
      intro a b ha h
      obtain rfl := List.length_eq_zero_iff.1 ha
      exact ⟨by simp, fun _ => rfl⟩
    | succ n ih =>
      intro a b ha h
      obtain ⟨a', x, rfl⟩ : ∃ a' x, a = a' ++ [x] := ⟨a.dropLast, a.getLast (by rintro rfl; simp at ha), (List.dropLast_concat_getLast _).symm⟩
      have ha' : a'.length = n := by simpa using ha
      have h' : o.elems = a' ++ x :: b := by rw [h]; simp
      have e := removeIf_at true sel o a' x b h'
      rw [ha'] at e
      rw [removeDown, e]
      obtain ⟨i1, i2⟩ := ih a' (x :: b) ha' h'
      cases hs : sel x with
      | true => exact ⟨fun _ => rfl, fun hall => by rw [hall x (by simp)] at hs; cases hs⟩
      | false =>
        refine ⟨fun ⟨y, hy, hys⟩ => ?_, fun hall => i2 fun y hy => hall y (by simp [hy])⟩
        rcases List.mem_append.1 hy with hy | hy
        · exact i1 ⟨y, hy, hys⟩
        · rw [List.mem_singleton] at hy
          rw [hy, hs] at hys
          cases hys
  exact h _ o.elems [] rfl (by simp)

/-- What is left if the element after one that was removed is not looked at. -/
def leftBySkipping (sel : Nat → Bool) : List Nat → List Nat
  | [] => []
  | [x] => if sel x then [] else [x]
  | x :: y :: l => if sel x then y :: leftBySkipping sel l else x :: leftBySkipping sel (y :: l)

theorem removeUp_skips (sel : Nat → Bool) (n : Nat) : ∀ (o : ColObj) (a b : List Nat), b.length < n → o.elems = a ++ b →
    removeUp false sel n a.length o = .ok { o with elems := a ++ leftBySkipping sel b } := by
  induction n with
  | zero => intro o a b hn; simp at hn
  | succ n ih =>
    intro o a b hn h
    cases b with
    | nil =>
      rw [List.append_nil] at h
      rw [removeUp, if_neg (by rw [h]; omega)]
      simp only [leftBySkipping, List.append_nil]
      rw [← h]
    | cons x b =>
      have hn' : b.length < n := by simpa using hn
      rw [removeUp, if_pos (by rw [h]; simp), removeIf_at false sel o a x b h]
      cases hs : sel x with
      | false =>
        simp only [Bool.false_eq_true, if_false]
        have := ih o (a ++ [x]) b hn' (by rw [h]; simp)
        rw [List.length_append, List.length_singleton] at this
        rw [this]
        cases b <;> simp [leftBySkipping, hs]
      | true =>
        simp only [if_true, Bool.false_eq_true, if_false]
        cases b with
        | nil =>
          cases n with
          | zero => simp at hn'
          | succ n =>
            rw [removeUp, if_neg (by simp)]
            simp [leftBySkipping, hs]
        | cons y b =>
          have := ih { o with elems := a ++ y :: b } (a ++ [y]) b (by simp at hn'; omega) (by simp)
          rw [List.length_append, List.length_singleton] at this
          rw [this]
          simp [leftBySkipping, hs]

/-- **C123** (partial): a program that begins at the first element and always goes to the next one, removes the selected elements if no two of them are neighbours. -/
theorem C123_forward_partial (sel : Nat → Bool) (o : ColObj) (n : Nat) (hn : o.elems.length < n)
    (h : ∀ i x y, o.elems[i]? = some x → o.elems[i + 1]? = some y → ¬ (sel x = true ∧ sel y = true)) :
    removeUp false sel n 0 o = .ok { o with elems := o.elems.filter fun e => !sel e } := by
  have e := removeUp_skips sel n o [] o.elems hn (by simp)
  rw [List.length_nil, List.nil_append] at e
  rw [e]
  have key : ∀ (m : Nat) (l : List Nat), l.length ≤ m → (∀ i x y, l[i]? = some x → l[i + 1]? = some y → ¬ (sel x = true ∧ sel y = true)) → leftBySkipping sel l = l.filter fun e => !sel e := by
    intro m
    induction m with
    | zero =>
      intro l hl _
      obtain rfl := List.length_eq_zero_iff.1 (Nat.le_zero.1 hl)
      rfl
    | succ m ih =>
      intro l hl hx
      match l, hl, hx with
      | [], _, _ => rfl
      | [x], _, _ => cases hs : sel x <;> simp [leftBySkipping, hs]
      | x :: y :: l, hl, hx =>
        have h1 : ∀ i a b, (y :: l)[i]? = some a → (y :: l)[i + 1]? = some b → ¬ (sel a = true ∧ sel b = true) := fun i a b ha hb => hx (i + 1) a b (by simpa using ha) (by simpa using hb)
        have hxy := hx 0 x y rfl rfl
        cases hs : sel x with
        | false =>
          have := ih (y :: l) (by simpa using hl) h1
          rw [leftBySkipping, hs, List.filter_cons]
          simp only [Bool.false_eq_true, if_false, hs, Bool.not_false, if_true]
          rw [this]
        | true =>
          have hy : sel y = false := by
            cases hy : sel y with
            | false => rfl
            | true => exact absurd ⟨hs, hy⟩ hxy
          have := ih l (by simp at hl; omega) (fun i a b ha hb => h1 (i + 1) a b (by simpa using ha) (by simpa using hb))
          rw [leftBySkipping, hs]
          simp only [if_true]
          rw [this]
          simp [hs, hy]
  rw [key _ o.elems (Nat.le_refl _) h]

/-- **C123** fails for such a program if two selected elements are neighbours (the first one such that nothing was selected before it): the second one is still there. -/
theorem C123_fails_forward (sel : Nat → Bool) (o : ColObj) (a : List Nat) (x y : Nat) (b : List Nat) (h : o.elems = a ++ x :: y :: b) (ha : ∀ e ∈ a, sel e = false) (hx : sel x = true) (_hy : sel y = true)
    (n : Nat) (hn : o.elems.length < n) : ∃ o', removeUp false sel n 0 o = .ok o' ∧ y ∈ o'.elems := by
  have e := removeUp_skips sel n o [] o.elems hn (by simp)
  rw [List.length_nil, List.nil_append] at e
  refine ⟨_, e, ?_⟩
  show y ∈ leftBySkipping sel o.elems
  rw [h]
  clear e hn h
  induction a with
  | nil => simp [leftBySkipping, hx]
  | cons c a ih =>
    have hc := ha c (by simp)
    have := ih fun e he => ha e (by simp [he])
    cases a with
    | nil => simp only [List.nil_append, List.cons_append, leftBySkipping, hc, Bool.false_eq_true, if_false] at this ⊢; exact List.mem_cons_of_mem _ this
    | cons d a => simp only [List.cons_append] at this ⊢; rw [leftBySkipping, hc]; exact List.mem_cons_of_mem _ this

/-- **C123** fails for a program that asks for the number of elements only once, before it begins at the first element: if any element but the last one is selected, it goes behind the end of the collection. -/
theorem C123_fails_counted (sel : Nat → Bool) (o : ColObj) (h : ∃ e ∈ o.elems.dropLast, sel e = true) : removeFixed false sel o.elems.length 0 o = .error .ub := by
  have short : ∀ (n i : Nat) (o : ColObj), i ≤ o.elems.length → o.elems.length < i + n → removeFixed false sel n i o = .error .ub := by
    intro n
    induction n with
    | zero => intro i o h1 h2; omega
    | succ n ih =>
      intro i o h1 h2
      by_cases hi : i < o.elems.length
      · have hsplit : o.elems = o.elems.take i ++ o.elems[i] :: o.elems.drop (i + 1) := by rw [List.getElem_cons_drop, List.take_append_drop]
        have e := removeIf_at false sel o _ _ _ hsplit
        rw [List.length_take, Nat.min_eq_left h1] at e
        rw [removeFixed, e]
        cases hs : sel o.elems[i] with
        | true =>
          simp only [if_true, Bool.false_eq_true, if_false]
          have hl : (o.elems.take i ++ o.elems.drop (i + 1)).length = o.elems.length - 1 := by rw [List.length_append, List.length_take, List.length_drop]; omega
          by_cases hle : i + 1 ≤ o.elems.length - 1
          · exact ih (i + 1) { o with elems := _ } (by simp only [hl]; exact hle) (by simp only [hl]; omega)
          · cases n with
            | zero => omega
            | succ n =>
              rw [removeFixed]
              have : removeIf false sel { o with elems := o.elems.take i ++ o.elems.drop (i + 1) } (i + 1) = .error .ub := by
                unfold removeIf colElementAt
                rw [List.getElem?_eq_none (by simp only [hl]; omega)]
              rw [this]
        | false =>
          simp only [Bool.false_eq_true, if_false]
          exact ih (i + 1) o hi (by omega)
      · rw [removeFixed]
        have : removeIf false sel o i = .error .ub := by
          unfold removeIf colElementAt
          rw [List.getElem?_eq_none (by omega)]
        rw [this]
  have first : ∀ (b a : List Nat) (o : ColObj), o.elems = a ++ b → (∃ e ∈ b.dropLast, sel e = true) → removeFixed false sel b.length a.length o = .error .ub := by
    intro b
    induction b with
    | nil => intro a o _ ⟨e, he, _⟩; cases he
    | cons x b ih =>
      intro a o ho ⟨e, he, hes⟩
      rw [List.length_cons, removeFixed, removeIf_at false sel o a x b ho]
      cases b with
      | nil => simp at he
      | cons y b =>
        cases hs : sel x with
        | true =>
          simp only [if_true, Bool.false_eq_true, if_false]
          exact short _ _ _ (by simp) (by simp)
        | false =>
          simp only [Bool.false_eq_true, if_false]
          have := ih (a ++ [x]) o (by rw [ho]; simp) (by
            rw [List.dropLast_cons_cons] at he
            rcases List.mem_cons.1 he with rfl | he
            · rw [hs] at hes; cases hes
            · exact ⟨e, he, hes⟩)
          rwa [List.length_append, List.length_singleton] at this
  exact first o.elems [] o (by simp) h

/-! ### Cases -/

/-- A collection with some elements. -/
def loopCol (l : List Nat) : ColObj := { flag := 0, type := str "MCParticle", elems := l, params := {} }

/-- What is left of a collection. -/
def leftIn (r : Except Err ColObj) : Option (List Nat) := r.toOption.map (·.elems)

/-- Five elements, of which those below 4 are selected. -/
example : leftIn (removeDown false (· < 4) 5 (loopCol [1, 2, 5, 3, 6])) = some [5, 6] ∧ leftIn (removeStay false (· < 4) 6 0 (loopCol [1, 2, 5, 3, 6])) = some [5, 6] ∧
    leftIn (removeUp false (· < 4) 6 0 (loopCol [1, 2, 5, 3, 6])) = some [2, 5, 6] ∧ leftIn (removeFixed false (· < 4) 5 0 (loopCol [1, 2, 5, 3, 6])) = none ∧
    leftIn (removeUp false (· < 4) 6 0 (loopCol [1, 5, 2, 6, 3])) = some [5, 6] := by decide +kernel

/-- The hypotheses of the theorems that need some are met. -/
example : (∃ o', removeUp false (· < 4) 6 0 (loopCol [5, 1, 2, 3, 6]) = .ok o' ∧ 2 ∈ o'.elems) ∧ removeFixed false (· < 4) 5 0 (loopCol [5, 1, 2, 3, 6]) = .error .ub ∧
    removeUp false (· < 4) 6 0 (loopCol [1, 5, 2, 6, 3]) = .ok (loopCol [5, 6]) :=
  ⟨C123_fails_forward (· < 4) (loopCol [5, 1, 2, 3, 6]) [5] 1 2 [3, 6] rfl (by decide) rfl rfl 6 (by decide), C123_fails_counted (· < 4) (loopCol [5, 1, 2, 3, 6]) ⟨1, by decide, rfl⟩,
    C123_forward_partial (· < 4) (loopCol [1, 5, 2, 6, 3]) 6 (by decide) (by
      intro i x y hx hy
      match i, hx, hy with
      | 0, hx, hy => cases hx; cases hy; decide
      | 1, hx, hy => cases hx; cases hy; decide
      | 2, hx, hy => cases hx; cases hy; decide
      | 3, hx, hy => cases hx; cases hy; decide
      | i + 4, _, hy => simp [loopCol] at hy)⟩

end Props
