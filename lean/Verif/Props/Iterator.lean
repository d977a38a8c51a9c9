import Verif.Util.Iterator
import Verif.Lcio.ParamsLemmas
/-
C82: iterators and typed vectors of collections.
-/
namespace Props
open Sio Util Lcio

variable {α : Type}

theorem numElements_small (col : List (Option α)) (h : col.length < 2 ^ 31) : numElements col = col.length := by
  unfold numElements
  rw [BitVec.toInt_ofNat', Int.bmod_def]
  have : ((col.length : Int) % ((2 ^ 32 : Nat) : Int)) = col.length := by omega
  rw [this]
  split <;> omega

theorem numElements_large (col : List (Option α)) (h : 2 ^ 31 ≤ col.length) (h' : col.length < 2 ^ 32) : numElements col < 0 := by
  unfold numElements
  rw [BitVec.toInt_ofNat', Int.bmod_def]
  have : ((col.length : Int) % ((2 ^ 32 : Nat) : Int)) = col.length := by omega
  rw [this]
  split <;> omega

theorem elementAt_ok (col : List (Option α)) (i : Nat) (p : Option α) (h : col[i]? = some p) : elementAt col i = .ok p := by
  unfold elementAt
  rw [if_neg (by omega), Int.toNat_natCast, h]

/-- The elements from `i` on, then null pointers for ever. -/
theorem nexts_eq (isT : α → Bool) (col : List (Option α)) (hT : ∀ o, some o ∈ col → isT o = true) : ∀ (cs : List (List (Option α))), (∀ c ∈ cs, col <+: c) → ∀ i : Nat,
    Iter.nexts isT { n := col.length, i } cs = .ok (((col.drop i) ++ List.replicate cs.length none).take cs.length) := by
  intro cs
  induction cs with
  | nil => intro _ i; simp [Iter.nexts]
  | cons c cs ih =>
    intro hc i
    obtain ⟨c', rfl⟩ := hc c List.mem_cons_self
    rw [Iter.nexts, Iter.next]
    by_cases hi : i < col.length
    · have hi' : ({ n := col.length, i := i } : Iter).i < ({ n := col.length, i := i } : Iter).n := by show (i : Int) < col.length; omega
      rw [if_pos hi']
      have he : (col ++ c')[i]? = some col[i] := by rw [List.getElem?_append_left hi, List.getElem?_eq_getElem hi]
      simp only [elementAt_ok _ _ _ he]
      have hs : staticCast isT col[i] = .ok col[i] := by
        cases hp : col[i] with
        | none => rfl
        | some o =>
          have := hT o (by rw [← hp]; exact List.getElem_mem hi)
          simp only [staticCast, this, if_true]
      simp only [hs]
      have := ih (fun c h => hc c (List.mem_cons_of_mem _ h)) (i + 1)
      rw [show ((i + 1 : Nat) : Int) = (i : Int) + 1 by omega] at this
      rw [this]
      rw [List.drop_eq_getElem_cons hi]
      simp only [List.length_cons, List.cons_append, List.take_succ_cons, Except.ok.injEq, List.cons.injEq, true_and]
      rw [List.replicate_succ', ← List.append_assoc]
      exact (List.take_append_of_le_length (by simp)).symm
    · have hi' : ¬ (({ n := col.length, i := i } : Iter).i < ({ n := col.length, i := i } : Iter).n) := by show ¬ ((i : Int) < col.length); omega
      rw [if_neg hi']
      simp only [ih (fun c h => hc c (List.mem_cons_of_mem _ h)) i]
      rw [List.drop_eq_nil_of_le (by omega)]
      simp [List.replicate_succ]

theorem iterNew_ok (isT : α → Bool) (col : List (Option α)) (h : col.length < 2 ^ 31) :
    ((∃ p, col.head? = some p ∧ dynCast isT p = none) → iterNew isT (some col) = .error .lcException) ∧
    ((∀ p, col.head? = some p → dynCast isT p ≠ none) → iterNew isT (some col) = .ok { n := col.length }) := by
  unfold iterNew
  simp only [numElements_small col h]
  cases col with
  | nil => exact ⟨fun ⟨p, hp, _⟩ => (nomatch hp), fun _ => rfl⟩
  | cons p col =>
    rw [if_pos (by simp only [List.length_cons]; omega)]
    have : elementAt (p :: col) 0 = .ok p := elementAt_ok (p :: col) 0 p rfl
    simp only [this, List.head?_cons, Option.some.injEq]
    constructor
    · rintro ⟨q, rfl, hq⟩; rw [hq]
    · intro hq
      cases hd : dynCast isT p with
      | none => exact absurd hd (hq p rfl)
      | some o => rfl

/-- **C82**, iterators: for a collection of objects of the type `T` (none null), of any number below 2³¹, and any number of calls of `next`, the calls return the objects, each once and in the
order of the collection, and from then on null pointers; `size` is the number of objects. Elements appended to the collection during the iteration (`cs` are the collection
at the times of the calls) do not disturb that, and are not returned. -/
theorem C82_iterates_partial (isT : α → Bool) (os : List α) (hn : os.length < 2 ^ 31) (hT : ∀ o ∈ os, isT o = true) :
    ∃ it, iterNew isT (some (os.map some)) = .ok it ∧ it.n = os.length ∧
      ∀ cs : List (List (Option α)), (∀ c ∈ cs, os.map some <+: c) → it.nexts isT cs = .ok ((os.map some ++ List.replicate cs.length none).take cs.length) := by
  have h := (iterNew_ok isT (os.map some) (by simpa using hn)).2 (by
    intro p hp
    cases os with
    | nil => cases hp
    | cons o os =>
      simp only [List.map_cons, List.head?_cons, Option.some.injEq] at hp
      subst hp
      simp only [dynCast, hT o List.mem_cons_self, if_true]
      exact fun h => nomatch h)
  refine ⟨_, h, by simp, fun cs hcs => ?_⟩
  have := nexts_eq isT (os.map some) (fun o ho => by
    obtain ⟨a, ha, e⟩ := List.mem_map.1 ho
    cases e
    exact hT _ ha) cs hcs 0
  simpa using this

theorem loop_eq (isT : α → Bool) (os : List α) (hT : ∀ o ∈ os, isT o = true) (rest : List (Option α)) : ∀ (fuel i : Nat), os.length < fuel + i → i ≤ os.length →
    ((rest = [] ∨ ∃ r, rest = none :: r) → Iter.loop isT (os.map some ++ rest) fuel { n := (os.map some ++ rest).length, i } = .ok (os.drop i)) := by
  intro fuel
  induction fuel with
  | zero => intro i h1 h2; omega
  | succ fuel ih =>
    intro i h1 h2 hr
    rw [Iter.loop, Iter.next]
    by_cases hi : i < os.length
    · have hi' : ({ n := (os.map some ++ rest).length, i := i } : Iter).i < ({ n := (os.map some ++ rest).length, i := i } : Iter).n := by
        show (i : Int) < (os.map some ++ rest).length; simp only [List.length_append, List.length_map]; omega
      rw [if_pos hi']
      have he : (os.map some ++ rest)[i]? = some (some os[i]) := by
        rw [List.getElem?_append_left (by simpa using hi), List.getElem?_map, List.getElem?_eq_getElem hi]; rfl
      simp only [elementAt_ok _ _ _ he, staticCast, hT os[i] (List.getElem_mem hi), if_true]
      have := ih (i + 1) (by omega) (by omega) hr
      rw [show ((i + 1 : Nat) : Int) = (i : Int) + 1 by omega] at this
      rw [this, List.drop_eq_getElem_cons hi]
    · have hi0 : i = os.length := by omega
      subst hi0
      rw [List.drop_length]
      rcases hr with rfl | ⟨r, rfl⟩
      · rw [if_neg (by show ¬ ((os.length : Int) < (os.map some ++ []).length); simp)]
      · rw [if_pos (by show (os.length : Int) < (os.map some ++ none :: r).length; simp only [List.length_append, List.length_map, List.length_cons]; omega)]
        have he : (os.map some ++ none :: r)[os.length]? = some none := by
          rw [List.getElem?_append_right (by simp)]; simp
        simp only [elementAt_ok _ _ _ he, staticCast]

/-- **C82**, loops: the loop `while( T* t = it.next() )` ends, and its body runs once for each object of the collection, in their order. -/
theorem C82_loops_partial (isT : α → Bool) (os : List α) (hn : os.length < 2 ^ 31) (hT : ∀ o ∈ os, isT o = true) :
    ∃ it, iterNew isT (some (os.map some)) = .ok it ∧ ∀ fuel, os.length < fuel → it.loop isT (os.map some) fuel = .ok os := by
  obtain ⟨it, h1, h2, _⟩ := C82_iterates_partial isT os hn hT
  have h := (iterNew_ok isT (os.map some) (by simpa using hn)).2 (by
    intro p hp hd
    rw [((iterNew_ok isT (os.map some) (by simpa using hn)).1 ⟨p, hp, hd⟩)] at h1
    cases h1)
  refine ⟨_, h, fun fuel hf => ?_⟩
  have := loop_eq isT os hT [] fuel 0 (by omega) (by omega) (Or.inl rfl)
  simpa using this

theorem typedLoop_eq (isT : α → Bool) (col : List (Option α)) : ∀ (k i : Nat), i + k = col.length → (i = 0 → ∀ p, col.head? = some p → dynCast isT p ≠ none) →
    typedLoop isT col k i = .ok ((col.drop i).map (dynCast isT)) := by
  intro k
  induction k with
  | zero => intro i h _; rw [typedLoop, List.drop_eq_nil_of_le (by omega)]; rfl
  | succ k ih =>
    intro i h h0
    have hi : i < col.length := by omega
    rw [typedLoop, elementAt_ok col i col[i] (List.getElem?_eq_getElem hi)]
    simp only
    rw [if_neg, ih (i + 1) (by omega) (by omega), List.drop_eq_getElem_cons hi, List.map_cons]
    rintro ⟨rfl, hn⟩
    refine h0 rfl col[0] ?_ (by simpa using hn)
    cases col with
    | nil => cases hi
    | cons p c => rfl

theorem typedVector_ok (isT : α → Bool) (col : List (Option α)) (hn : col.length < 2 ^ 31) :
    ((∃ p, col.head? = some p ∧ dynCast isT p = none) → typedVector isT col = .error .lcException) ∧
    ((∀ p, col.head? = some p → dynCast isT p ≠ none) → typedVector isT col = .ok (col.map (dynCast isT))) := by
  unfold typedVector
  rw [numElements_small col hn, if_neg (by omega), Int.toNat_natCast]
  constructor
  · rintro ⟨p, hp, h⟩
    cases col with
    | nil => cases hp
    | cons q c =>
      simp only [List.head?_cons, Option.some.injEq] at hp
      subst hp
      rw [List.length_cons, typedLoop, elementAt_ok (q :: c) 0 q rfl]
      simp [h]
  · intro h
    have := typedLoop_eq isT col col.length 0 (by omega) (fun _ => h)
    simpa using this

/-- **C82**, the type: the constructor throws `Exception` if the first element is null or not of the type `T`. -/
theorem C82_checks_first (isT : α → Bool) (col : List (Option α)) (hn : col.length < 2 ^ 31) :
    (iterNew isT (some col) = .error .lcException ↔ ∃ p, col.head? = some p ∧ ∀ o, p = some o → isT o = false) ∧
    (typedVector isT col = .error .lcException ↔ ∃ p, col.head? = some p ∧ ∀ o, p = some o → isT o = false) := by
  have hd : ∀ p : Option α, dynCast isT p = none ↔ ∀ o, p = some o → isT o = false := by
    intro p
    cases p with
    | none => simp [dynCast]
    | some o => simp [dynCast]
  constructor
  · constructor
    · intro h
      cases hh : col.head? with
      | none => rw [(iterNew_ok isT col hn).2 (by rw [hh]; exact fun p hp => nomatch hp)] at h; cases h
      | some p =>
        by_cases hp : dynCast isT p = none
        · exact ⟨p, rfl, (hd p).1 hp⟩
        · rw [(iterNew_ok isT col hn).2 (by rw [hh]; rintro q hq; cases hq; exact hp)] at h; cases h
    · rintro ⟨p, hp, h⟩
      exact (iterNew_ok isT col hn).1 ⟨p, hp, (hd p).2 h⟩
  · constructor
    · intro h
      cases hh : col.head? with
      | none => rw [(typedVector_ok isT col hn).2 (by rw [hh]; exact fun p hp => nomatch hp)] at h; cases h
      | some p =>
        by_cases hp : dynCast isT p = none
        · exact ⟨p, rfl, (hd p).1 hp⟩
        · rw [(typedVector_ok isT col hn).2 (by rw [hh]; rintro q hq; cases hq; exact hp)] at h; cases h
    · rintro ⟨p, hp, h⟩
      exact (typedVector_ok isT col hn).1 ⟨p, hp, (hd p).2 h⟩

/-- **C82**, typed vectors: if the first element is of the type `T` (or there is none) then the vector has one pointer for each element of the collection, in their order: to the element if it
is of the type `T`, and null otherwise. -/
theorem C82_typed_vector (isT : α → Bool) (col : List (Option α)) (hn : col.length < 2 ^ 31) (h : ∀ p, col.head? = some p → ∃ o, p = some o ∧ isT o = true) :
    ∃ v, typedVector isT col = .ok v ∧ v.length = col.length ∧
      ∀ (i : Nat) (p : Option α), col[i]? = some p → ∀ o, v[i]? = some (some o) ↔ p = some o ∧ isT o = true := by
  refine ⟨_, (typedVector_ok isT col hn).2 ?_, by simp, ?_⟩
  · intro p hp
    obtain ⟨o, rfl, ho⟩ := h p hp
    simp [dynCast, ho]
  · intro i p hp o
    rw [List.getElem?_map, hp]
    cases p with
    | none => simp [dynCast]
    | some x =>
      by_cases hx : isT x = true
      · simp only [dynCast, hx, if_true, Option.map_some, Option.some.injEq]
        exact ⟨fun e => ⟨e, e ▸ hx⟩, fun e => e.1⟩
      · simp only [dynCast, hx, Option.map_some, Option.some.injEq]
        constructor
        · intro e; simp at e
        · rintro ⟨e, ho⟩; exact absurd (e ▸ ho) hx

/-- **C82**, missing collections: an iterator for a name that is not in the event behaves as for an empty collection. -/
theorem C82_missing (isT : α → Bool) (cols : List (Str × List (Option α))) (name : Str) (h : name ∉ cols.map (·.1)) :
    iterNewNamed isT cols name = .ok { n := 0, i := 0 } ∧ iterNewNamed isT cols name = iterNew isT (some []) ∧
      ∀ cs : List (List (Option α)), Iter.nexts isT { n := 0, i := 0 } cs = .ok (List.replicate cs.length none) := by
  have hf : omFind strLt name cols = none := by
    unfold omFind
    rw [Option.map_eq_none_iff, List.find?_eq_none]
    intro e he heq
    exact h (List.mem_map.2 ⟨e, he, (eqv_str _ _).1 heq⟩)
  unfold iterNewNamed
  rw [hf]
  refine ⟨rfl, rfl, fun cs => ?_⟩
  induction cs with
  | nil => rfl
  | cons c cs ih =>
    rw [Iter.nexts, Iter.next, if_neg (by decide)]
    simp only [ih, List.length_cons, List.replicate_succ]

/-- A collection of three objects, of which the even numbers are of the type `T`. -/
def evenT (n : Nat) : Bool := n % 2 == 0
example : iterNew evenT (some [some 2, some 4, some 8]) = .ok { n := 3 } ∧
    Iter.nexts evenT { n := 3 } (List.replicate 5 [some 2, some 4, some 8]) = .ok [some 2, some 4, some 8, none, none] ∧
    Iter.loop evenT [some 2, some 4, some 8] 4 { n := 3 } = .ok [2, 4, 8] ∧
    typedVector evenT [some 2, some 3, none, some 4] = .ok [some 2, none, none, some 4] ∧
    iterNew evenT (some [some 3, some 4]) = .error .lcException := by decide +kernel

/-- **C82** fails for collections with null elements: a loop ends at the first of them, although there are more objects. -/
theorem C82_fails_for_null (isT : α → Bool) (os : List α) (h0 : os ≠ []) (hT : ∀ o ∈ os, isT o = true) (rest : List (Option α)) (hn : (os.map some ++ none :: rest).length < 2 ^ 31) :
    ∃ it, iterNew isT (some (os.map some ++ none :: rest)) = .ok it ∧ ∀ fuel, os.length < fuel → it.loop isT (os.map some ++ none :: rest) fuel = .ok os := by
  have h := (iterNew_ok isT (os.map some ++ none :: rest) hn).2 (by
    intro p hp
    cases os with
    | nil => exact absurd rfl h0
    | cons o os =>
      simp only [List.map_cons, List.cons_append, List.head?_cons, Option.some.injEq] at hp
      subst hp
      simp only [dynCast, hT o List.mem_cons_self, if_true]
      exact fun h => nomatch h)
  refine ⟨_, h, fun fuel hf => ?_⟩
  have := loop_eq isT os hT (none :: rest) fuel 0 (by omega) (by omega) (Or.inr ⟨rest, rfl⟩)
  simpa using this

/-- **C82** fails for collections of objects of different types: only the first is checked, and `next` has undefined behaviour at another one. (In a typed vector it is a null pointer.) -/
theorem C82_fails_for_other_types (isT : α → Bool) (a b : α) (ha : isT a = true) (hb : isT b = false) :
    ∃ it, iterNew isT (some [some a, some b]) = .ok it ∧ it.nexts isT [[some a, some b], [some a, some b]] = .error .ub ∧
      typedVector isT [some a, some b] = .ok [some a, none] := by
  refine ⟨{ n := 2 }, ?_, ?_, ?_⟩
  · have := (iterNew_ok isT [some a, some b] (by simp)).2 (by
      intro p hp; simp only [List.head?_cons, Option.some.injEq] at hp; subst hp; simp [dynCast, ha])
    exact this
  · simp [Iter.nexts, Iter.next, elementAt, staticCast, ha, hb]
  · have := (typedVector_ok isT [some a, some b] (by simp)).2 (by
      intro p hp; simp only [List.head?_cons, Option.some.injEq] at hp; subst hp; simp [dynCast, ha])
    rw [this]; simp [dynCast, ha, hb]

/-- **C82** fails for collections from which an element is removed during the iteration: the number of elements is that at the beginning, and `next` reads beyond the end. -/
theorem C82_fails_for_removed (isT : α → Bool) (a : α) (ha : isT a = true) :
    ∃ it, iterNew isT (some [some a, some a]) = .ok it ∧ it.nexts isT [[some a, some a], [some a]] = .error .ub := by
  refine ⟨{ n := 2 }, ?_, ?_⟩
  · exact (iterNew_ok isT [some a, some a] (by simp)).2 (by
      intro p hp; simp only [List.head?_cons, Option.some.injEq] at hp; subst hp; simp [dynCast, ha])
  · simp [Iter.nexts, Iter.next, elementAt, staticCast, ha]

/-- **C82** fails for 2³¹ elements or more (below 2³²): their number is negative, and an iterator returns none of them; a typed vector throws. -/
theorem C82_fails_for_many (isT : α → Bool) (col : List (Option α)) (h : 2 ^ 31 ≤ col.length) (h' : col.length < 2 ^ 32) :
    (∃ it, iterNew isT (some col) = .ok it ∧ ∀ cs : List (List (Option α)), it.nexts isT cs = .ok (List.replicate cs.length none)) ∧
    typedVector isT col = .error .lengthError := by
  have hneg := numElements_large col h h'
  refine ⟨⟨{ n := numElements col }, ?_, fun cs => ?_⟩, ?_⟩
  · unfold iterNew
    simp only
    rw [if_neg (by omega)]
  · induction cs with
    | nil => rfl
    | cons c cs ih =>
      rw [Iter.nexts, Iter.next, if_neg (by show ¬ ((0 : Int) < numElements col); omega)]
      simp only [ih, List.length_cons, List.replicate_succ]
  · unfold typedVector
    rw [if_pos hneg]

end Props
