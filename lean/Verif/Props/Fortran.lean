import Verif.Spec.Fortran
import Verif.Util.FortranLemmas
import Verif.Lcio.MemoryLemmas
/-
C94: the Fortran interface.
-/
namespace Props
open Sio Lcio Fort Spec

/-! ## Arrays -/

/-- **C94.** Vectors of numbers and of pointers: a program that gives an array and its size `n` gets the first `n` values of the vector, all of them if there are not more; the rest of the array is not changed, and the number says how many there are.
A vector made of this part of the array has just these values. -/
theorem C94_arrays_partial {α : Type} (vec a : List α) (n : Int) (h0 : 0 ≤ n) (hn : n ≤ a.length) :
    ∃ a' k, getVector vec a n = .ok (a', k) ∧ k = min n vec.length ∧ StoredAtFront vec a k.toNat a' ∧ createVector a' k = .ok (vec.take n.toNat) := by
  have hk : ∀ k : Nat, k ≤ vec.length → k ≤ a.length → putAll a 0 (vec.take k) = .ok (vec.take k ++ a.drop k) := by
    intro k h1 h2
    have := putAll_ok (vec.take k) a 0 (by rw [List.length_take]; omega)
    rw [this]; simp [Nat.min_eq_left h1]
  have main : ∀ k : Nat, k ≤ vec.length → k ≤ a.length → StoredAtFront vec a k (vec.take k ++ a.drop k) ∧ createVector (vec.take k ++ a.drop k) (k : Int) = .ok (vec.take k) := by
    intro k h1 h2
    have hl : (vec.take k).length = k := by rw [List.length_take]; omega
    refine ⟨⟨by rw [List.length_append, hl, List.length_drop]; omega, fun i hi => ?_, fun i hi => ?_⟩, ?_⟩
    · rw [List.getElem?_append_left (by omega), List.getElem?_take, if_pos hi]
    · rw [List.getElem?_append_right (by omega), hl, List.getElem?_drop, Nat.add_sub_cancel' hi]
    · unfold createVector
      rw [Int.toNat_natCast, if_neg (by rw [List.length_append, hl]; omega), List.take_append_of_le_length (by omega), List.take_take, Nat.min_self]
  unfold getVector
  by_cases hgt : (vec.length : Int) > n
  · obtain ⟨m, rfl⟩ := Int.eq_ofNat_of_zero_le h0
    obtain ⟨m1, m2⟩ := main m (by omega) (by omega)
    refine ⟨_, (m : Int), ?_, by omega, m1, by rw [Int.toNat_natCast]; exact m2⟩
    simp only [if_pos hgt, Int.toNat_natCast, hk m (by omega) (by omega)]
  · obtain ⟨m1, m2⟩ := main vec.length (by omega) (by omega)
    refine ⟨_, (vec.length : Int), ?_, by omega, m1, ?_⟩
    · simp only [if_neg hgt, Int.toNat_natCast, hk vec.length (by omega) (by omega)]
    · rw [m2, List.take_of_length_le (Nat.le_refl _), List.take_of_length_le (by omega)]

example : getVector [1, 2, 3] [7, 7, 7, 7, 7] 4 = .ok ([1, 2, 3, 7, 7], 3) ∧ getVector [1, 2, 3] [7, 7, 7] 2 = .ok ([1, 2, 7], 2) := ⟨rfl, rfl⟩

/-- **C94.** Parameters of vertices and particle ids, and weights of the hits of clusters: with room for at least one value the values are stored as far as there is room, the code says whether there was room for all of them, and the rest of the array is not
changed. -/
theorem C94_values_partial {α : Type} (vec a : List α) (n : Int) (h1 : 1 ≤ n) (hn : n ≤ a.length) (hi : n < 2 ^ 31) :
    ∃ a' k, getParameters vec a n = .ok (decide ((vec.length : Int) ≤ n), a', k) ∧ StoredAtFront vec a (min n.toNat vec.length) a' := by
  obtain ⟨m, rfl⟩ := Int.eq_ofNat_of_zero_le (show 0 ≤ n by omega)
  have e : (((m : Int) - 1) % 2 ^ 32).toNat + 1 = m := by
    rw [Int.emod_eq_of_lt (by omega) (by omega)]; omega
  have hp := putAll_ok (vec.take m) a 0 (by rw [List.length_take]; omega)
  have hs : StoredAtFront vec a (min m vec.length) (a.take 0 ++ vec.take m ++ a.drop (0 + (vec.take m).length)) := by
    rw [List.take_zero, List.nil_append, Nat.zero_add, List.length_take]
    refine ⟨by rw [List.length_append, List.length_take, List.length_drop]; omega, fun i hi => ?_, fun i hi => ?_⟩
    · rw [List.getElem?_append_left (by rw [List.length_take]; omega), List.getElem?_take, if_pos (by omega)]
    · rw [List.getElem?_append_right (by rw [List.length_take]; omega), List.length_take, List.getElem?_drop, Nat.add_sub_cancel' hi]
  unfold getParameters
  simp only [e, hp]
  by_cases hv : vec.length > m
  · rw [if_pos hv, show decide ((vec.length : Int) ≤ (m : Int)) = false from decide_eq_false (by omega)]
    exact ⟨_, _, rfl, hs⟩
  · rw [if_neg hv, show decide ((vec.length : Int) ≤ (m : Int)) = true from decide_eq_true (by omega)]
    exact ⟨_, _, rfl, hs⟩

example : getParameters [1, 2, 3] [7, 7, 7, 7, 7] 5 = .ok (true, [1, 2, 3, 7, 7], 4) ∧ getParameters [1, 2, 3] [7, 7, 7] 2 = .ok (false, [1, 2, 7], 2) := by decide

/-- **C94 fails** for their number: it is always one too large. -/
theorem C94_fails_count {α : Type} (vec a : List α) (n : Int) (h1 : 1 ≤ n) (hn : n ≤ a.length) (hi : n < 2 ^ 31) (hv : (vec.length : Int) ≤ n) :
    ∃ a', getParameters vec a n = .ok (true, a', vec.length + 1) := by
  obtain ⟨m, rfl⟩ := Int.eq_ofNat_of_zero_le (show 0 ≤ n by omega)
  have e : (((m : Int) - 1) % 2 ^ 32).toNat + 1 = m := by
    rw [Int.emod_eq_of_lt (by omega) (by omega)]; omega
  have hp := putAll_ok (vec.take m) a 0 (by rw [List.length_take]; omega)
  unfold getParameters
  simp only [e, hp]
  rw [if_neg (by omega)]
  exact ⟨_, rfl⟩

/-- **C94 fails** for an array without room: nothing keeps the function from writing behind it. -/
theorem C94_fails_no_room {α : Type} (vec a : List α) (hv : vec.length > a.length) : getParameters vec a 0 = .error .ub ∨ vec.length > 2 ^ 32 := by
  by_cases hl : vec.length > 2 ^ 32
  · exact .inr hl
  · left
    unfold getParameters
    have e : (((0 : Int) - 1) % 2 ^ 32).toNat + 1 = 2 ^ 32 := by decide
    simp only [e]
    rw [List.take_of_length_le (by omega), putAll_error vec a 0 (by rintro rfl; simp at hv) (by omega)]

/-! ## Strings -/

/-- **C94.** Vectors of strings: strings that fit into the strings of the program are stored in its character array, as many as there are or as the program asks for, and the vector made of the array is the same; the array is not changed behind them. -/
theorem C94_strings_partial (vec : List Str) (buf : List Byte) (n : Int) (nch : Nat) (h0 : 0 ≤ n) (hs : ∀ s ∈ vec, FitsFortran nch s) (hb : n * (nch + 1) ≤ buf.length) :
    ∃ buf' k, getStrings vec buf n nch = .ok (buf', k) ∧ k = min n vec.length ∧ createStrings buf' k nch = .ok (vec.take n.toNat) ∧
      buf'.length = buf.length ∧ buf'.drop (k.toNat * (nch + 1)) = buf.drop (k.toNat * (nch + 1)) := by
  obtain ⟨m, rfl⟩ := Int.eq_ofNat_of_zero_le h0
  have hb' : m * (nch + 1) ≤ buf.length := by exact_mod_cast hb
  have main : ∀ k : Nat, k ≤ vec.length → k ≤ m → ∃ b, putStrings (nch + 1) buf 0 (vec.take k) = .ok b ∧ createStrings b (k : Int) nch = .ok (vec.take k) ∧
      b.length = buf.length ∧ b.drop (k * (nch + 1)) = buf.drop (k * (nch + 1)) := by
    intro k h1 h2
    have hl : (vec.take k).length = k := by rw [List.length_take]; omega
    obtain ⟨b, g1, g2, _, g4, g5⟩ := putStrings_ok (nch + 1) (vec.take k) buf 0
      (fun s h => ⟨by have := (hs s (List.mem_of_mem_take h)).1; omega, (hs s (List.mem_of_mem_take h)).2⟩)
      (by rw [hl, Nat.zero_add]; exact Nat.le_trans (Nat.mul_le_mul_right _ h2) hb')
    rw [hl, Nat.zero_add] at g4
    rw [hl] at g5
    exact ⟨b, g1, by unfold createStrings; rw [Int.toNat_natCast]; exact g5, g2, g4⟩
  unfold getStrings
  by_cases hgt : (vec.length : Int) > (m : Int)
  · obtain ⟨b, g1, g2, g3, g4⟩ := main m (by omega) (Nat.le_refl _)
    refine ⟨b, (m : Int), ?_, by omega, by rw [Int.toNat_natCast]; exact g2, g3, by rw [Int.toNat_natCast]; exact g4⟩
    simp only [if_pos hgt, Int.toNat_natCast, g1]
  · obtain ⟨b, g1, g2, g3, g4⟩ := main vec.length (Nat.le_refl _) (by omega)
    refine ⟨b, (vec.length : Int), ?_, by omega, ?_, g3, by rw [Int.toNat_natCast]; exact g4⟩
    · simp only [if_neg hgt, Int.toNat_natCast, g1]
    · rw [g2, List.take_of_length_le (Nat.le_refl _), List.take_of_length_le (by omega)]

example : getStrings [str "TPC", str "ECAL"] (str "..................") 3 5 = .ok (str "TPC" ++ [0] ++ str ".." ++ str "ECAL" ++ [0] ++ str ".......", 2) := by decide

/-- **C94 fails** for strings that are one character too long: together with the next one they make one string. -/
theorem C94_fails_long_strings (nch : Nat) (s t : Str) (hs : s.length = nch + 1) (hz : (0 : Byte) ∉ s) (ht : FitsFortran nch t) (buf : List Byte) (hb : buf.length = 2 * (nch + 1)) :
    ∃ buf', getStrings [s, t] buf 2 nch = .ok (buf', 2) ∧ createStrings buf' 2 nch = .ok [s ++ t, t] := by
  obtain ⟨ht1, ht2⟩ := ht
  have h1 := strcpy_ok buf 0 s hz (by omega)
  rw [List.take_zero, List.nil_append, Nat.zero_add] at h1
  have hl1 : (s ++ [0] ++ buf.drop (s.length + 1)).length = 2 * (nch + 1) := by
    simp only [List.length_append, List.length_drop, List.length_cons, List.length_nil]; omega
  have h2 := strcpy_ok (s ++ [0] ++ buf.drop (s.length + 1)) (nch + 1) t ht2 (by omega)
  have h3 : (s ++ [0] ++ buf.drop (s.length + 1)).take (nch + 1) = s := by
    rw [List.append_assoc, List.take_append_of_le_length (by omega), List.take_of_length_le (by omega)]
  rw [h3] at h2
  generalize (s ++ [0] ++ buf.drop (s.length + 1)).drop (nch + 1 + t.length + 1) = r at h2
  refine ⟨s ++ (t ++ [0]) ++ r, ?_, ?_⟩
  · have hp : putStrings (nch + 1) buf 0 [s, t] = .ok (s ++ (t ++ [0]) ++ r) := by
      simp only [putStrings, h1, Nat.zero_add, h2]
    unfold getStrings
    rw [if_neg (by simp)]
    simp only [List.length_cons, List.length_nil]
    rw [show [s, t].take (((0 + 1 + 1 : Nat) : Int)).toNat = [s, t] from rfl, hp]
    rfl
  · have r1 : stringAt (s ++ (t ++ [0]) ++ r) 0 = .ok (s ++ t) := by
      unfold stringAt
      rw [List.drop_zero, if_pos (by simp), show s ++ (t ++ [0]) ++ r = (s ++ t) ++ 0 :: r by simp, cut_nul _ (by simp [hz, ht2])]
    have r2 : stringAt (s ++ (t ++ [0]) ++ r) (nch + 1) = .ok t := by
      unfold stringAt
      have hd : (s ++ (t ++ [0]) ++ r).drop (nch + 1) = t ++ 0 :: r := by
        rw [List.append_assoc, List.drop_append_of_le_length (by omega), List.drop_eq_nil_of_le (by omega)]; simp
      rw [hd, if_pos (by simp), cut_nul _ ht2]
    unfold createStrings
    rw [show (2 : Int).toNat = 2 from rfl]
    simp only [readStrings, Nat.zero_add, r1, r2]

/-- **C94 fails** for a string that is too long at the end of the array: it is written behind the array. -/
theorem C94_fails_long_string (nch : Nat) (s : Str) (hs : nch < s.length) (hz : (0 : Byte) ∉ s) (buf : List Byte) (hb : buf.length = nch + 1) : getStrings [s] buf 1 nch = .error .ub := by
  have := strcpy_error buf 0 s hz (by omega)
  simp [getStrings, putStrings, this]

/-- **C94 fails** for strings with a byte that is zero: they are stored up to it. -/
theorem C94_fails_zero_bytes (nch : Nat) (s t : Str) (hs : FitsFortran nch s) (buf : List Byte) (hb : buf.length = nch + 1) :
    ∃ buf', getStrings [s ++ 0 :: t] buf 1 nch = .ok (buf', 1) ∧ createStrings buf' 1 nch = .ok [s] := by
  obtain ⟨h1, h2⟩ := hs
  have hc := strcpy_ok buf 0 s h2 (by omega)
  have e : strcpy buf 0 (s ++ 0 :: t) = strcpy buf 0 s := by unfold strcpy; rw [cut_nul s h2, cut_of_not_mem s h2]
  rw [List.take_zero, List.nil_append, Nat.zero_add] at hc
  refine ⟨_, by simp [getStrings, putStrings, e, hc]; rfl, ?_⟩
  have r1 : stringAt (s ++ 0 :: buf.drop (s.length + 1)) 0 = .ok s := by
    unfold stringAt
    rw [List.drop_zero, if_pos (by simp), cut_nul _ h2]
  unfold createStrings
  rw [show (1 : Int).toNat = 1 from rfl]
  simp only [readStrings, r1]

/-! ## Run headers -/

/-- **C94.** Run headers: a program with character arrays that are large enough gets the number of the run, the name of the detector, the description and the names of the subdetectors, and a run header made of what it got is the same. -/
theorem C94_run_headers_partial (h : RunHeader) (detname description sdnames : List Byte) (nch : Nat)
    (hdz : (0 : Byte) ∉ h.det) (hcz : (0 : Byte) ∉ h.descr) (hd : h.det.length < detname.length) (hc : h.descr.length < description.length)
    (hs : ∀ s ∈ h.subdets, FitsFortran nch s) (hb : h.subdets.length * (nch + 1) ≤ sdnames.length) :
    ∃ det descr sd, readRunHeader (some h) detname description sdnames nch = .ok (h.run, det, descr, sd, h.subdets.length) ∧
      det.length = detname.length ∧ descr.length = description.length ∧ sd.length = sdnames.length ∧
      writeRunHeader h.run det descr sd h.subdets.length nch = .ok { run := h.run, det := h.det, descr := h.descr, subdets := h.subdets } := by
  have h1 := strcpy_ok detname 0 h.det hdz (by omega)
  have h2 := strcpy_ok description 0 h.descr hcz (by omega)
  obtain ⟨sd, g1, g2, _, _, g5⟩ := putStrings_ok (nch + 1) h.subdets sdnames 0 (fun s hm => ⟨by have := (hs s hm).1; omega, (hs s hm).2⟩) (by omega)
  refine ⟨detname.take 0 ++ (h.det ++ [0]) ++ detname.drop (0 + h.det.length + 1), description.take 0 ++ (h.descr ++ [0]) ++ description.drop (0 + h.descr.length + 1), sd, ?_, ?_, ?_, g2, ?_⟩
  · unfold readRunHeader
    simp only [h1, h2, g1]
  · exact strcpy_length _ _ _ _ h1
  · exact strcpy_length _ _ _ _ h2
  · unfold writeRunHeader
    rw [Int.toNat_natCast, g5]
    simp only [List.take_zero, List.nil_append, List.append_assoc, List.singleton_append]
    rw [cut_nul _ hdz, cut_nul _ hcz]

example : readRunHeader (some { run := 5, det := str "D", descr := str "xy", subdets := [str "T", str "E"] }) (str "....") (str "....") (str ".......") 1 =
    .ok (5, str "D" ++ [0] ++ str "..", str "xy" ++ [0] ++ str ".", str "T" ++ [0] ++ str "E" ++ [0] ++ str "...", 2) := by decide

/-- **C94 fails** at the end of the file: there is no run header, and what is not there is used. -/
theorem C94_fails_at_end (detname description sdnames : List Byte) (nch : Nat) : readRunHeader none detname description sdnames nch = .error .ub := rfl

/-- **C94 fails** for run headers with more subdetectors than the array of the program has room for: the function is not told how many there are, and writes behind the array. -/
theorem C94_fails_subdetectors (h : RunHeader) (detname description sdnames : List Byte) (nch room : Nat) (hb : sdnames.length = room * (nch + 1)) (hr : h.subdets.length > room) :
    readRunHeader (some h) detname description sdnames nch = .error .ub := by
  unfold readRunHeader
  rcases strcpy_cases detname 0 h.det with h1 | ⟨b1, h1, _⟩
  · simp only [h1]
  rcases strcpy_cases description 0 h.descr with h2 | ⟨b2, h2, _⟩
  · simp only [h1, h2]
  cases hs : h.subdets with
  | nil => rw [hs] at hr; simp at hr
  | cons s ss =>
    rw [hs, List.length_cons] at hr
    have := putStrings_error (nch + 1) s ss sdnames 0 (by rw [hb, Nat.zero_add]; exact Nat.mul_le_mul_right _ (by omega))
    simp only [h1, h2, hs, this]

/-! ## Elements by number -/

/-- **C94.** Elements by number: numbers count from one; functions that look at the range report a number outside of it. -/
theorem C94_indices_partial {α : Type} (f : Access) (l : List α) (i : Int) (hf : countsFromOne f = true) :
    (∀ x, nth1 l i = some x → f.get l i = .ok x) ∧
    (nth1 l i = none → reportsRange f = true → f.get l i = .error .lcException ∨ f.get l i = .error .notAvailable) := by
  have hidx : ∀ x, nth1 l i = some x → index l (i - 1) = .ok x ∧ (∀ e, indexAt l (i - 1) e = .ok x) ∧ 1 ≤ i ∧ i ≤ l.length := by
    intro x hx
    unfold nth1 at hx
    by_cases h1 : 1 ≤ i
    · rw [if_pos h1] at hx
      have hlt := (List.getElem?_eq_some_iff.1 hx).1
      refine ⟨by unfold index; rw [if_neg (by omega), hx], fun e => by unfold indexAt; rw [if_neg (by omega), hx], h1, by omega⟩
    · rw [if_neg h1] at hx; cases hx
  have hout : nth1 l i = none → (i < 1 ∨ i > (l.length : Int)) ∧ (∀ e, indexAt l (i - 1) e = .error e) := by
    intro hx
    unfold nth1 at hx
    by_cases h1 : 1 ≤ i
    · rw [if_pos h1] at hx
      have := List.getElem?_eq_none_iff.1 hx
      refine ⟨by omega, fun e => ?_⟩
      unfold indexAt
      rw [if_neg (by omega), hx]
    · refine ⟨by omega, fun e => ?_⟩
      unfold indexAt
      rw [if_pos (by omega)]
  constructor
  · intro x hx
    obtain ⟨h1, h2, h3, h4⟩ := hidx x hx
    cases f <;> simp only [countsFromOne, Bool.false_eq_true] at hf <;> simp only [Access.get, h1, h2]
    · rw [if_neg (by omega)]
    · rw [if_neg (by omega)]
    · rw [if_neg (by omega)]
  · intro hx hr
    obtain ⟨h1, h2⟩ := hout hx
    cases f <;> simp only [reportsRange, Bool.false_eq_true] at hr <;> simp only [Access.get, h2]
    · exact .inl trivial
    · exact .inr trivial
    · rw [if_pos h1]; exact .inl rfl
    · rw [if_neg (by omega)]; exact .inl rfl

example : Access.daughter.get [10, 20, 30] 1 = .ok 10 ∧ Access.related.get [10, 20, 30] 3 = .ok 30 ∧ Access.related.get [10, 20, 30] 4 = .error .lcException := by decide

/-- **C94 fails** for parents, and for the coordinates of simulated tracker hits: the number counts from zero, so that the next element is returned, and the last number is undefined. -/
theorem C94_fails_parents {α : Type} (f : Access) (l : List α) (i : Int) (hf : countsFromOne f = false) (h1 : 1 ≤ i) :
    (∀ x, nth1 l (i + 1) = some x → f.get l i = .ok x) ∧ (i = l.length → f.get l i = .error .ub) := by
  have hg : f.get l i = index l i := by cases f <;> simp only [countsFromOne, Bool.true_eq_false] at hf <;> rfl
  rw [hg]
  unfold index
  rw [if_neg (by omega)]
  constructor
  · intro x hx
    unfold nth1 at hx
    rw [if_pos (by omega), show i + 1 - 1 = i by omega] at hx
    rw [hx]
  · intro e
    rw [List.getElem?_eq_none (by omega)]

example : Access.parent.get [10, 20, 30] 1 = .ok 20 ∧ Access.parent.get [10, 20, 30] 3 = .error .ub := by decide

/-- **C94 fails** for removing an element of a collection: the element after the one with the number is removed, and the number of the last element is undefined. -/
theorem C94_fails_remove {α : Type} (l : List α) (i : Nat) (h1 : 1 ≤ i) :
    (i < l.length → removeElementAt false l i = .ok (true, l.take i ++ l.drop (i + 1))) ∧ (i = l.length → removeElementAt false l i = .error .ub) ∧ removeElementAt true l i = .ok (false, l) := by
  refine ⟨fun h => ?_, fun h => ?_, rfl⟩
  · unfold removeElementAt
    rw [if_neg (by decide), if_neg (by omega), Int.toNat_natCast, List.eraseIdx_eq_take_drop_succ]
  · unfold removeElementAt
    rw [if_neg (by decide), if_pos (by omega)]

/-- **C94 fails** for the calorimeter hits of a collection: the test of the range is never true, numbers outside of it are undefined. -/
theorem C94_fails_range {α : Type} (l : List α) (i : Int) (h : nth1 l i = none) : Access.simCaloHits.get l i = .error .ub := by
  unfold nth1 at h
  simp only [Access.get]
  rw [if_neg (by omega)]
  unfold index
  by_cases h1 : 1 ≤ i
  · rw [if_pos h1] at h
    rw [if_neg (by omega), h]
  · rw [if_pos (by omega)]

/-! ## Parameters -/

/-- **C94.** Parameters: what is set with a vector of the simple kind is got back, at the end of a vector of the other kind. -/
theorem C94_parameters_partial (p : Params) (hp : p.readOnly = false) (key setter getter : Str) (v w r : Vector) (h : SameValues setter getter v w r) :
    ∃ p', setMethod p setter key v = .ok (true, p') ∧ getMethod p' getter key w = .ok (true, r) ∧
      ∀ key' getter', key' ≠ key → getter' = str "getIntValues" ∨ getter' = str "getFloatValues" ∨ getter' = str "getStringValues" →
        getMethod p' getter' key' w = getMethod p getter' key' w := by
  cases h with
  | ints l m =>
    refine ⟨{ p with ints := assignVals p.ints key l }, ?_, ?_, ?_⟩
    · unfold setMethod
      rw [if_pos rfl]
      simp [Params.setInts, Params.checked, hp]
    · unfold getMethod
      rw [if_pos rfl]
      simp [getVals, assignVals, omFind_assign_str]
    · intro key' getter' hk hg
      unfold getMethod
      rcases hg with rfl | rfl | rfl <;> simp [str, getVals, assignVals, omFind_assign_str, hk]
  | floats l m =>
    refine ⟨{ p with floats := assignVals p.floats key l }, ?_, ?_, ?_⟩
    · unfold setMethod
      rw [if_neg (by decide), if_pos rfl]
      simp [Params.setFloats, Params.checked, hp]
    · unfold getMethod
      rw [if_neg (by decide), if_pos rfl]
      simp [getVals, assignVals, omFind_assign_str]
    · intro key' getter' hk hg
      unfold getMethod
      rcases hg with rfl | rfl | rfl <;> simp [str, getVals, assignVals, omFind_assign_str, hk]
  | strs l m =>
    refine ⟨{ p with strs := assignVals p.strs key l }, ?_, ?_, ?_⟩
    · unfold setMethod
      rw [if_neg (by decide), if_neg (by decide), if_pos rfl]
      simp [Params.setStrs, Params.checked, hp]
    · unfold getMethod
      rw [if_neg (by decide), if_neg (by decide), if_pos rfl]
      simp [getVals, assignVals, omFind_assign_str]
    · intro key' getter' hk hg
      unfold getMethod
      rcases hg with rfl | rfl | rfl <;> simp [str, getVals, assignVals, omFind_assign_str, hk]

/-- **C94 fails** for programs that use one kind of vectors: with none of them parameters can be both set and got. -/
theorem C94_fails_one_kind (p q : Params) (key : Str) (v : Vector) :
    (setMethod p (str "setIntValues") key v = .error .ub ∨ getMethod q (str "getIntValues") key v = .error .ub) ∧
    (setMethod p (str "setFloatValues") key v = .error .ub ∨ getMethod q (str "getFloatValues") key v = .error .ub) ∧
    (setMethod p (str "setStringValues") key v = .error .ub ∨ getMethod q (str "getStringValues") key v = .error .ub) := by
  have e1 : str "setFloatValues" ≠ str "setIntValues" := by decide
  have e2 : str "setStringValues" ≠ str "setIntValues" := by decide
  have e3 : str "setStringValues" ≠ str "setFloatValues" := by decide
  have e4 : str "getFloatValues" ≠ str "getIntValues" := by decide
  have e5 : str "getStringValues" ≠ str "getIntValues" := by decide
  have e6 : str "getStringValues" ≠ str "getFloatValues" := by decide
  refine ⟨?_, ?_, ?_⟩
  · cases v <;> first | exact .inl rfl | exact .inr rfl
  · unfold setMethod getMethod
    rw [if_neg e1, if_pos rfl, if_neg e4, if_pos rfl]
    cases v <;> first | exact .inl rfl | exact .inr rfl
  · unfold setMethod getMethod
    rw [if_neg e2, if_neg e3, if_pos rfl, if_neg e5, if_neg e6, if_pos rfl]
    cases v <;> first | exact .inl rfl | exact .inr rfl

/-- **C94 fails** for the keys of parameters that are strings: the name of the method is misspelled, with the right name nothing is got. -/
theorem C94_fails_string_keys (p : Params) (key : Str) (v : Vector) : getMethod p (str "getStringKeys") key v = .ok (false, v) := by
  unfold getMethod
  rw [if_neg (by decide), if_neg (by decide), if_neg (by decide), if_neg (by decide), if_neg (by decide), if_neg (by decide)]

end Props
