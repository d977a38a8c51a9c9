import Verif.Spec.Closest
/-
C106: the state of a track that is closest to a point.
-/
namespace Props
open Sio Spec Lcio

theorem fltGt_iff (a b : W32) (ha : fNaN a = false) (hb : fNaN b = false) : fltGt a b = true ↔ fKey b < fKey a := by
  unfold fltGt
  simp [ha, hb]

/-- What the loop finds, when it has seen `seen`. -/
theorem closestLoop_least (A : DistArith) (x y z : W32) (f : Nat × TrackState → W32) (hf : f = fun s => distSquare A x y z s.2.reference) (rest : List (Nat × TrackState)) :
    ∀ (seen : List (Nat × TrackState)) (i : Nat) (s : Nat × TrackState), (∀ t ∈ seen ++ rest, fNaN (f t) = false) → FirstLeast (fun t => fKey (f t)) seen i s →
    ∃ (i' : Nat) (s' : Nat × TrackState), closestLoop A x y z s.1 (f s) rest = s'.1 ∧ FirstLeast (fun t => fKey (f t)) (seen ++ rest) i' s' := by
  induction rest with
  | nil => intro seen i s _ h; exact ⟨i, s, rfl, by rw [List.append_nil]; exact h⟩
  | cons t rest ih =>
    intro seen i s hn h
    have hfs : fNaN (f s) = false := hn s (List.mem_append_left _ (List.mem_of_getElem? h.here))
    have hft : fNaN (f t) = false := hn t (List.mem_append_right _ List.mem_cons_self)
    have hiff := fltGt_iff (f s) (f t) hfs hft
    have hlt : i < seen.length := (List.getElem?_eq_some_iff.1 h.here).1
    have hap : seen ++ t :: rest = (seen ++ [t]) ++ rest := by rw [List.append_assoc, List.singleton_append]
    have hd : f t = distSquare A x y z t.2.reference := by rw [hf]
    rw [hap] at hn ⊢
    unfold closestLoop
    rw [← hd]
    by_cases hc : fltGt (f s) (f t) = true
    · rw [if_pos hc]
      have hk := hiff.1 hc
      refine ih (seen ++ [t]) seen.length t hn ⟨by simp, fun u hu => ?_, fun j u hj hu => ?_⟩
      · rcases List.mem_append.1 hu with hu | hu
        · have : fKey (f s) ≤ fKey (f u) := h.least u hu
          show fKey (f t) ≤ fKey (f u)
          omega
        · rw [List.mem_singleton] at hu; subst hu; exact Int.le_refl _
      · rw [List.getElem?_append_left hj] at hu
        have : fKey (f s) ≤ fKey (f u) := h.least u (List.mem_of_getElem? hu)
        show fKey (f t) < fKey (f u)
        omega
    · rw [if_neg hc]
      refine ih (seen ++ [t]) i s hn ⟨by rw [List.getElem?_append_left hlt]; exact h.here, fun u hu => ?_, fun j u hj hu => ?_⟩
      · rcases List.mem_append.1 hu with hu | hu
        · exact h.least u hu
        · rw [List.mem_singleton] at hu; subst hu
          have : ¬ fKey (f u) < fKey (f s) := fun hh => hc (hiff.2 hh)
          show fKey (f s) ≤ fKey (f u)
          omega
      · rw [List.getElem?_append_left (by omega)] at hu
        exact h.first j u hj hu

/-- **C106** (partial). For any arithmetic, and any track with at least one state: if all the squares of the distances as they are computed are numbers,
`getClosestTrackState` gives a state of the track, and of all states none has a smaller distance; if several have the smallest distance, it is the first of them.
What is missing: tracks without states and distances that are not numbers (see below), and the rounding: the distances compared are those that were computed. -/
theorem C106_partial (A : DistArith) (t : TrackObj) (x y z : W32) (hne : t.states ≠ [])
    (hn : ∀ s ∈ t.states, fNaN (distSquare A x y z s.2.reference) = false) :
    ∃ (i : Nat) (s : Nat × TrackState), t.getClosestTrackState A x y z = .ok s.1 ∧ FirstLeast (fun s : Nat × TrackState => fKey (distSquare A x y z s.2.reference)) t.states i s := by
  unfold TrackObj.getClosestTrackState
  cases h : t.states with
  | nil => exact (hne h).elim
  | cons s rest =>
    rw [h] at hn
    obtain ⟨i, s', h1, h2⟩ := closestLoop_least A x y z (fun s => distSquare A x y z s.2.reference) rfl rest [s] 0 s (by simpa using hn)
      ⟨rfl, fun u hu => by rw [List.mem_singleton] at hu; subst hu; exact Int.le_refl _, fun j u hj => by omega⟩
    exact ⟨i, s', by simp only at h1 ⊢; rw [h1], h2⟩

/-- **C106** fails for tracks without states, such as new ones: the behaviour is undefined (the other functions of the track check this, and null could be
returned). -/
theorem C106_fails_without_states (A : DistArith) (ro : Bool) (x y z : W32) : TrackObj.getClosestTrackState A { states := [], readOnly := ro } x y z = .error .ub := rfl

theorem closestLoop_nan (A : DistArith) (x y z : W32) (c : Nat) (d : W32) (hd : fNaN d = true) (l : List (Nat × TrackState)) : closestLoop A x y z c d l = c := by
  induction l with
  | nil => rfl
  | cons s l ih =>
    unfold closestLoop
    rw [if_neg (by unfold fltGt; simp [hd]), ih]

/-- **C106** fails if the distance of the first state is not a number (say, because its reference point is not): it is returned, however close the other states
are. -/
theorem C106_fails_for_nan (A : DistArith) (s : Nat × TrackState) (rest : List (Nat × TrackState)) (ro : Bool) (x y z : W32)
    (hs : fNaN (distSquare A x y z s.2.reference) = true) : TrackObj.getClosestTrackState A { states := s :: rest, readOnly := ro } x y z = .ok s.1 := by
  simp only [TrackObj.getClosestTrackState, closestLoop_nan A x y z s.1 _ hs]

/-- An arithmetic for which things can be computed: small numbers are themselves, and what is not a number remains so. -/
def wholeArith : DistArith where
  sub a b := if fNaN a || fNaN b then 0x7fc00000 else a - b
  pow2 a := if fNaN a then 0xffffffff else a.zeroExtend 64 * a.zeroExtend 64
  add a b := if a = 0xffffffff ∨ b = 0xffffffff then 0xffffffff else a + b
  narrow a := if a = 0xffffffff then 0x7fc00000 else a.truncate 32

/-- A track with three states, two of them at the same distance. -/
def threeStates : TrackObj := { states := [(7, { location := 1, reference := [9, 0, 0] }), (8, { location := 2, reference := [2, 3, 4] }), (9, { location := 3, reference := [2, 4, 3] })] }

/-- The hypotheses of C106 are met, and the second state is the closest. -/
example : threeStates.states ≠ [] ∧ (∀ s ∈ threeStates.states, fNaN (distSquare wholeArith 10 10 10 s.2.reference) = false) ∧
    threeStates.getClosestTrackState wholeArith 10 10 10 = .ok 8 := by decide +kernel

/-- The hypothesis of `C106_fails_for_nan` is met: the second state is at the point itself, but the first one is returned. -/
example : fNaN (distSquare wholeArith 10 10 10 [0x7fc00000, 0, 0]) = true ∧
    TrackObj.getClosestTrackState wholeArith { states := [(7, { reference := [0x7fc00000, 0, 0] }), (8, { reference := [10, 10, 10] })] } 10 10 10 = .ok 7 := by decide +kernel

end Props
