import Verif.Util.ParallelRead
import Verif.Props.SessionCases
/-
C96: lcio_parallel_read.
-/
namespace Props
open Sio Lcio Util Spec

/-- The events in a list of pairs that belong to a thread. -/
def shownOf (t : Nat) (order : List (Nat × EventData)) : List EventData := (order.filter fun x => x.1 == t).map (·.2)

theorem shownOf_same (t : Nat) (order : List (Nat × EventData)) (e : EventData) : shownOf t (order ++ [(t, e)]) = shownOf t order ++ [e] := by
  simp [shownOf]

theorem shownOf_other (t u : Nat) (h : u ≠ t) (order : List (Nat × EventData)) (e : EventData) : shownOf t (order ++ [(u, e)]) = shownOf t order := by
  simp [shownOf, h]

/-- A reader that has given the events `es` of a file. -/
def Follows (cfg : RConfig) (disk : List (Str × List Byte)) (name : Str) (es : List EventData) (r : Reader) : Prop :=
  ∀ fuel, readFile cfg disk (es.length + fuel) name = (es ++ (readRest cfg fuel r).1, (readRest cfg fuel r).2)

theorem follows_open (cfg : RConfig) (disk : List (Str × List Byte)) (name : Str) (r : Reader) (h : openOne cfg disk name = .ok r) : Follows cfg disk name [] r := by
  intro fuel
  simp [readFile, h]

theorem follows_read (cfg : RConfig) (disk : List (Str × List Byte)) (name : Str) (es : List EventData) (r r' : Reader) (e : EventData) (h : Follows cfg disk name es r)
    (hr : r.readNextEvent cfg = (.ok (some e), r')) : Follows cfg disk name (es ++ [e]) r' := by
  intro fuel
  have := h (fuel + 1)
  simp only [readRest, hr] at this
  rw [List.length_append, List.length_singleton, Nat.add_assoc, Nat.add_comm 1 fuel, this]
  simp

theorem follows_done (cfg : RConfig) (disk : List (Str × List Byte)) (name : Str) (es : List EventData) (r r' : Reader) (h : Follows cfg disk name es r)
    (hr : r.readNextEvent cfg = (.ok none, r')) (fuel : Nat) : readFile cfg disk (es.length + fuel + 1) name = (es, none) := by
  have := h (fuel + 1)
  simp only [readRest, hr, List.append_nil] at this
  exact this

theorem follows_fails (cfg : RConfig) (disk : List (Str × List Byte)) (name : Str) (es : List EventData) (r r' : Reader) (x : Err) (h : Follows cfg disk name es r)
    (hr : r.readNextEvent cfg = (.error x, r')) (fuel : Nat) : readFile cfg disk (es.length + fuel + 1) name = (es, some x) := by
  have := h (fuel + 1)
  simp only [readRest, hr, List.append_nil] at this
  exact this

/-- Where a thread is when it has printed the events `es`. -/
def ThreadAt (cfg : RConfig) (disk : List (Str × List Byte)) (name : Str) (es : List EventData) : FileThread → Prop
  | .opening => es = []
  | .reading r n => n = es.length ∧ Follows cfg disk name es r
  | .locking r n e => n = es.length ∧ Follows cfg disk name (es ++ [e]) r
  | .dumping r n _ => n = es.length ∧ ∃ e, Follows cfg disk name (es ++ [e]) r
  | .returned n => n = es.length ∧ ∀ fuel, readFile cfg disk (es.length + fuel + 1) name = (es, none)
  | .threw x => ∀ fuel, readFile cfg disk (es.length + fuel + 1) name = (es, some x)

/-- What is being written. -/
def Writing (cfg : RConfig) (disk : List (Str × List Byte)) (names : List Str) (threads : List FileThread) (order : List (Nat × EventData)) (part : List Str) : Option Nat → Prop
  | none => part = [] ∧ ∀ (t : Nat) (r : Reader) (n : Nat) (left : List Str), threads[t]? ≠ some (.dumping r n left)
  | some t => ∃ (r : Reader) (n : Nat) (left : List Str) (e : EventData) (name : Str), threads[t]? = some (.dumping r n left) ∧ names[t]? = some name ∧
      dumpEvent e = part ++ left ∧ Follows cfg disk name (shownOf t order ++ [e]) r ∧
      ∀ (u : Nat) (r : Reader) (n : Nat) (left : List Str), threads[u]? = some (.dumping r n left) → u = t

/-- What the main thread has done. -/
def MainAt (names : List Str) (threads : List FileThread) (order : List (Nat × EventData)) (tail : List Str) : MainThread → Prop
  | .summing i total => tail = [] ∧ (∀ j < i, ∃ n, threads[j]? = some (.returned n)) ∧ total = (order.filter fun x => decide (x.1 < i)).length
  | .ended => tail = lastLine order.length names.length ∧ ∀ j < names.length, ∃ n, threads[j]? = some (.returned n)
  | .failed e => tail = [] ∧ ∃ t : Nat, threads[t]? = some (.threw e)

/-- The invariant of the program. -/
def PInv (cfg : RConfig) (disk : List (Str × List Byte)) (names : List Str) (s : PRead) (order : List (Nat × EventData)) (part tail : List Str) : Prop :=
  s.threads.length = names.length ∧ (∀ x ∈ order, x.1 < names.length) ∧
  (∀ (t : Nat) (th : FileThread) (name : Str), s.threads[t]? = some th → names[t]? = some name → ThreadAt cfg disk name (shownOf t order) th) ∧
  Writing cfg disk names s.threads order part s.mutex ∧ MainAt names s.threads order tail s.main ∧
  s.out = (order.map fun x => dumpEvent x.2).flatten ++ part ++ tail

theorem count_below (order : List (Nat × EventData)) (i : Nat) :
    (order.filter fun x => decide (x.1 < i + 1)).length = (order.filter fun x => decide (x.1 < i)).length + (shownOf i order).length := by
  unfold shownOf
  rw [List.length_map]
  induction order with
  | nil => rfl
  | cons x l ih =>
    simp only [List.filter_cons]
    by_cases h1 : x.1 < i
    · have h2 : x.1 < i + 1 := by omega
      have h3 : ¬ x.1 = i := by omega
      simp only [h1, h2, beq_iff_eq, h3, decide_true, if_true, if_false, List.length_cons, ih]
      omega
    · by_cases h3 : x.1 = i
      · have h2 : x.1 < i + 1 := by omega
        simp only [beq_iff_eq, h3, decide_true, decide_false, if_true, Bool.false_eq_true, if_false, List.length_cons, ih, Nat.lt_irrefl, Nat.lt_succ_self]
        omega
      · have h2 : ¬ x.1 < i + 1 := by omega
        simp only [h1, h2, beq_iff_eq, h3, decide_false, Bool.false_eq_true, if_false, ih]

theorem pstart_inv (cfg : RConfig) (disk : List (Str × List Byte)) (names : List Str) : PInv cfg disk names (PRead.start names) [] [] [] := by
  refine ⟨by simp [PRead.start], (fun _ h => by cases h), ?_, ⟨rfl, ?_⟩, ⟨rfl, ?_, rfl⟩, rfl⟩
  · intro t th name h _
    simp only [PRead.start, List.getElem?_map, Option.map_eq_some_iff] at h
    obtain ⟨_, _, rfl⟩ := h
    exact rfl
  · intro t r n left h
    simp only [PRead.start, List.getElem?_map, Option.map_eq_some_iff] at h
    obtain ⟨_, _, h⟩ := h
    cases h
  · intro j hj
    omega

/-- A thread that neither prints nor has the mutex does something else. -/
theorem other_step (cfg : RConfig) (disk : List (Str × List Byte)) (names : List Str) (s : PRead) (order : List (Nat × EventData)) (part tail : List Str) (h : PInv cfg disk names s order part tail)
    (t : Nat) (a b : FileThread) (ha : s.threads[t]? = some a) (hd : ∀ r n left, a ≠ .dumping r n left) (hd' : ∀ r n left, b ≠ .dumping r n left) (hr : ∀ n, a ≠ .returned n) (ht : ∀ e, a ≠ .threw e)
    (hb : ∀ name, names[t]? = some name → ThreadAt cfg disk name (shownOf t order) a → ThreadAt cfg disk name (shownOf t order) b) :
    PInv cfg disk names { s with threads := s.threads.set t b } order part tail := by
  obtain ⟨h1, h2, h3, h4, h5, h6⟩ := h
  have hlt : t < s.threads.length := (List.getElem?_eq_some_iff.1 ha).1
  have hget : ∀ u, u ≠ t → (s.threads.set t b)[u]? = s.threads[u]? := fun u hu => List.getElem?_set_ne (Ne.symm hu)
  have hgett : (s.threads.set t b)[t]? = some b := by rw [List.getElem?_set_self hlt]
  have hdump : ∀ (u : Nat) (r : Reader) (n : Nat) (left : List Str), (s.threads.set t b)[u]? = some (.dumping r n left) → s.threads[u]? = some (.dumping r n left) := by
    intro u r n left hu
    by_cases e : u = t
    · subst e; rw [hgett] at hu; cases hu; exact absurd rfl (hd' r n left)
    · rwa [hget u e] at hu
  refine ⟨by rw [List.length_set]; exact h1, h2, ?_, ?_, ?_, h6⟩
  · intro u th name hu hn
    by_cases e : u = t
    · subst e
      change (s.threads.set u b)[u]? = some th at hu
      rw [hgett] at hu
      cases hu
      exact hb name hn (h3 u a name ha hn)
    · change (s.threads.set t b)[u]? = some th at hu
      rw [hget u e] at hu
      exact h3 u th name hu hn
  · show Writing cfg disk names (s.threads.set t b) order part s.mutex
    revert h4
    cases s.mutex with
    | none => exact fun ⟨a1, a2⟩ => ⟨a1, fun u r n left hu => a2 u r n left (hdump u r n left hu)⟩
    | some v =>
      rintro ⟨r, n, left, e, name, a1, a2, a3, a4, a5⟩
      have hv : v ≠ t := by
        rintro rfl
        rw [ha] at a1
        cases a1
        exact hd r n left rfl
      exact ⟨r, n, left, e, name, (hget v hv).trans a1, a2, a3, a4, fun u r n left hu => a5 u r n left (hdump u r n left hu)⟩
  · show MainAt names (s.threads.set t b) order tail s.main
    have hret : ∀ j : Nat, (∃ n, s.threads[j]? = some (.returned n)) → ∃ n, (s.threads.set t b)[j]? = some (.returned n) := by
      rintro j ⟨n, hj⟩
      refine ⟨n, (hget j ?_).trans hj⟩
      rintro rfl
      rw [ha] at hj
      cases hj
      exact hr n rfl
    revert h5
    cases s.main with
    | summing i total => exact fun ⟨a1, a2, a3⟩ => ⟨a1, fun j hj => hret j (a2 j hj), a3⟩
    | ended => exact fun ⟨a1, a2⟩ => ⟨a1, fun j hj => hret j (a2 j hj)⟩
    | failed e =>
      rintro ⟨a1, u, hu⟩
      refine ⟨a1, u, (hget u ?_).trans hu⟩
      rintro rfl
      rw [ha] at hu
      cases hu
      exact ht e rfl

theorem pstep_inv (cfg : RConfig) (disk : List (Str × List Byte)) (names : List Str) (s s' : PRead) (h : ∃ order part tail, PInv cfg disk names s order part tail)
    (hs : PStep cfg disk names s s') : ∃ order part tail, PInv cfg disk names s' order part tail := by
  obtain ⟨order, part, tail, h⟩ := h
  cases hs with
  | @opened t name r a1 a2 a3 =>
    refine ⟨order, part, tail, other_step cfg disk names s order part tail h t _ _ a1 nofun nofun nofun nofun ?_⟩
    intro name' hn ht
    rw [a2] at hn
    cases hn
    rw [show shownOf t order = [] from ht]
    exact ⟨rfl, follows_open cfg disk name r a3⟩
  | @notOpened t name e a1 a2 a3 =>
    refine ⟨order, part, tail, other_step cfg disk names s order part tail h t _ _ a1 nofun nofun nofun nofun ?_⟩
    intro name' hn ht fuel
    rw [a2] at hn
    cases hn
    rw [show shownOf t order = [] from ht]
    simp [readFile, a3]
  | @read t r r' n e a1 a2 =>
    refine ⟨order, part, tail, other_step cfg disk names s order part tail h t _ _ a1 nofun nofun nofun nofun ?_⟩
    rintro name' hn ⟨b1, b2⟩
    exact ⟨b1, follows_read cfg disk name' _ r r' e b2 a2⟩
  | @done t r r' n a1 a2 =>
    refine ⟨order, part, tail, other_step cfg disk names s order part tail h t _ _ a1 nofun nofun nofun nofun ?_⟩
    rintro name' hn ⟨b1, b2⟩
    exact ⟨b1, follows_done cfg disk name' _ r r' b2 a2⟩
  | @readFails t r r' n e a1 a2 =>
    refine ⟨order, part, tail, other_step cfg disk names s order part tail h t _ _ a1 nofun nofun nofun nofun ?_⟩
    rintro name' hn ⟨b1, b2⟩
    exact follows_fails cfg disk name' _ r r' e b2 a2
  | @lock t r n e a1 a2 =>
    obtain ⟨h1, h2, h3, h4, h5, h6⟩ := h
    rw [a2] at h4
    obtain ⟨c1, c2⟩ := h4
    subst c1
    have hlt : t < s.threads.length := (List.getElem?_eq_some_iff.1 a1).1
    have hname : names[t]? = some (names[t]'(by omega)) := List.getElem?_eq_getElem _
    have hget : ∀ u, u ≠ t → (s.threads.set t (.dumping r n (dumpEvent e)))[u]? = s.threads[u]? := fun u hu => List.getElem?_set_ne (Ne.symm hu)
    have hgett : (s.threads.set t (.dumping r n (dumpEvent e)))[t]? = some (.dumping r n (dumpEvent e)) := by rw [List.getElem?_set_self hlt]
    obtain ⟨b1, b2⟩ := h3 t _ _ a1 hname
    refine ⟨order, [], tail, by rw [List.length_set]; exact h1, h2, ?_, ?_, ?_, h6⟩
    · intro u th name hu hn
      by_cases eq : u = t
      · subst eq
        change (s.threads.set u _)[u]? = some th at hu
        rw [hgett] at hu
        cases hu
        rw [hname] at hn
        cases hn
        exact ⟨b1, e, b2⟩
      · change (s.threads.set t _)[u]? = some th at hu
        rw [hget u eq] at hu
        exact h3 u th name hu hn
    · refine ⟨r, n, dumpEvent e, e, _, hgett, hname, rfl, b2, ?_⟩
      intro u r n left hu
      by_cases eq : u = t
      · exact eq
      · rw [hget u eq] at hu
        exact absurd hu (c2 u r n left)
    · show MainAt names (s.threads.set t _) order tail s.main
      have hret : ∀ j : Nat, (∃ n, s.threads[j]? = some (.returned n)) → ∃ n', (s.threads.set t (.dumping r n (dumpEvent e)))[j]? = some (.returned n') := by
        rintro j ⟨n', hj⟩
        refine ⟨n', (hget j ?_).trans hj⟩
        rintro rfl
        rw [a1] at hj
        cases hj
      revert h5
      cases s.main with
      | summing i total => exact fun ⟨a1, a2, a3⟩ => ⟨a1, fun j hj => hret j (a2 j hj), a3⟩
      | ended => exact fun ⟨a1, a2⟩ => ⟨a1, fun j hj => hret j (a2 j hj)⟩
      | failed e =>
        rintro ⟨b1, u, hu⟩
        refine ⟨b1, u, (hget u ?_).trans hu⟩
        rintro rfl
        rw [a1] at hu
        cases hu
  | @write t r n x left a1 =>
    obtain ⟨h1, h2, h3, h4, h5, h6⟩ := h
    have hlt : t < s.threads.length := (List.getElem?_eq_some_iff.1 a1).1
    have hget : ∀ u, u ≠ t → (s.threads.set t (.dumping r n left))[u]? = s.threads[u]? := fun u hu => List.getElem?_set_ne (Ne.symm hu)
    have hgett : (s.threads.set t (.dumping r n left))[t]? = some (.dumping r n left) := by rw [List.getElem?_set_self hlt]
    cases hm : s.mutex with
    | none => rw [hm] at h4; exact absurd a1 (h4.2 t r n _)
    | some v =>
      rw [hm] at h4
      obtain ⟨r1, n1, left1, e, name, c1, c2, c3, c4, c5⟩ := h4
      have hv := c5 t r n _ a1
      subst hv
      rw [a1] at c1
      cases c1
      have htail : tail = [] ∨ ∃ l, s.main = l ∧ l = .ended := by
        revert h5
        cases s.main with
        | summing i total => exact fun h => .inl h.1
        | ended => exact fun _ => .inr ⟨_, rfl, rfl⟩
        | failed e => exact fun h => .inl h.1
      have htail : tail = [] := by
        rcases htail with h | ⟨l, h, rfl⟩
        · exact h
        · rw [h] at h5
          obtain ⟨n', hn'⟩ := h5.2 t (by omega)
          rw [a1] at hn'
          cases hn'
      subst htail
      refine ⟨order, part ++ [x], [], by rw [List.length_set]; exact h1, h2, ?_, ?_, ?_, ?_⟩
      · intro u th name' hu hn
        by_cases eq : u = t
        · subst eq
          change (s.threads.set u _)[u]? = some th at hu
          rw [hgett] at hu
          cases hu
          have b := h3 u _ name' a1 hn
          exact ⟨b.1, b.2⟩
        · change (s.threads.set t _)[u]? = some th at hu
          rw [hget u eq] at hu
          exact h3 u th name' hu hn
      · refine ⟨r, n, left, e, name, hgett, c2, by simp [c3], c4, ?_⟩
        intro u r' n' left' hu
        by_cases eq : u = t
        · exact eq
        · rw [hget u eq] at hu
          exact c5 u r' n' left' hu
      · show MainAt names (s.threads.set t _) order [] s.main
        have hret : ∀ j : Nat, (∃ n, s.threads[j]? = some (.returned n)) → ∃ n', (s.threads.set t (.dumping r n left))[j]? = some (.returned n') := by
          rintro j ⟨n', hj⟩
          refine ⟨n', (hget j ?_).trans hj⟩
          rintro rfl
          rw [a1] at hj
          cases hj
        revert h5
        cases s.main with
        | summing i total => exact fun ⟨a1, a2, a3⟩ => ⟨a1, fun j hj => hret j (a2 j hj), a3⟩
        | ended => exact fun ⟨a1, a2⟩ => ⟨a1, fun j hj => hret j (a2 j hj)⟩
        | failed e =>
          rintro ⟨b1, u, hu⟩
          refine ⟨b1, u, (hget u ?_).trans hu⟩
          rintro rfl
          rw [a1] at hu
          cases hu
      · show s.out ++ [x] = _
        rw [h6]
        simp
  | @unlock t r n a1 =>
    obtain ⟨h1, h2, h3, h4, h5, h6⟩ := h
    have hlt : t < s.threads.length := (List.getElem?_eq_some_iff.1 a1).1
    have hget : ∀ u, u ≠ t → (s.threads.set t (.reading r (n + 1)))[u]? = s.threads[u]? := fun u hu => List.getElem?_set_ne (Ne.symm hu)
    have hgett : (s.threads.set t (.reading r (n + 1)))[t]? = some (.reading r (n + 1)) := by rw [List.getElem?_set_self hlt]
    cases hm : s.mutex with
    | none => rw [hm] at h4; exact absurd a1 (h4.2 t r n _)
    | some v =>
      rw [hm] at h4
      obtain ⟨r1, n1, left1, e, name, c1, c2, c3, c4, c5⟩ := h4
      have hv := c5 t r n _ a1
      subst hv
      rw [a1] at c1
      cases c1
      rw [List.append_nil] at c3
      obtain ⟨hn, -⟩ := h3 t _ name a1 c2
      have hnot : ∀ j : Nat, (∃ n, s.threads[j]? = some (.returned n)) → j ≠ t := by
        rintro j ⟨n', hj⟩ rfl
        rw [a1] at hj
        cases hj
      have hret : ∀ j : Nat, (∃ n, s.threads[j]? = some (.returned n)) → ∃ n', (s.threads.set t (.reading r (n + 1)))[j]? = some (.returned n') := fun j hj =>
        hj.imp fun n' hn' => (hget j (hnot j hj)).trans hn'
      refine ⟨order ++ [(t, e)], [], tail, by rw [List.length_set]; exact h1, ?_, ?_, ⟨rfl, ?_⟩, ?_, ?_⟩
      · intro y hy
        rw [List.mem_append, List.mem_singleton] at hy
        rcases hy with hy | rfl
        · exact h2 y hy
        · show t < names.length
          omega
      · intro u th name' hu hn'
        by_cases eq : u = t
        · subst eq
          change (s.threads.set u _)[u]? = some th at hu
          rw [hgett] at hu
          cases hu
          rw [c2] at hn'
          cases hn'
          rw [shownOf_same]
          exact ⟨by rw [List.length_append, hn]; rfl, c4⟩
        · change (s.threads.set t _)[u]? = some th at hu
          rw [hget u eq] at hu
          rw [shownOf_other _ _ (Ne.symm eq)]
          exact h3 u th name' hu hn'
      · intro u r' n' left' hu
        by_cases eq : u = t
        · subst eq
          rw [hgett] at hu
          cases hu
        · rw [hget u eq] at hu
          exact eq (c5 u r' n' left' hu)
      · show MainAt names (s.threads.set t _) _ tail s.main
        revert h5
        cases s.main with
        | summing i total =>
          rintro ⟨b1, b2, b3⟩
          refine ⟨b1, fun j hj => hret j (b2 j hj), ?_⟩
          have hti : ¬ t < i := fun hlt => hnot t (b2 t hlt) rfl
          rw [List.filter_append, List.length_append, ← b3]
          simp [hti]
        | ended =>
          rintro ⟨b1, b2⟩
          exact absurd rfl (hnot t (b2 t (by omega)))
        | failed e' =>
          rintro ⟨b1, u, hu⟩
          refine ⟨b1, u, (hget u ?_).trans hu⟩
          rintro rfl
          rw [a1] at hu
          cases hu
      · show s.out = _
        rw [h6, ← c3]
        simp
  | @get i total n a1 a2 =>
    obtain ⟨h1, h2, h3, h4, h5, h6⟩ := h
    rw [a1] at h5
    obtain ⟨b1, b2, b3⟩ := h5
    have hlt : i < s.threads.length := (List.getElem?_eq_some_iff.1 a2).1
    obtain ⟨hn, -⟩ := h3 i _ (names[i]'(by omega)) a2 (List.getElem?_eq_getElem _)
    refine ⟨order, part, tail, h1, h2, h3, h4, ⟨b1, ?_, ?_⟩, h6⟩
    · intro j hj
      by_cases eq : j = i
      · exact ⟨n, eq ▸ a2⟩
      · exact b2 j (by omega)
    · rw [count_below, ← b3, hn]
  | @getFails i total e a1 a2 =>
    obtain ⟨h1, h2, h3, h4, h5, h6⟩ := h
    rw [a1] at h5
    exact ⟨order, part, tail, h1, h2, h3, h4, ⟨h5.1, i, a2⟩, h6⟩
  | @finish i total a1 a2 =>
    obtain ⟨h1, h2, h3, h4, h5, h6⟩ := h
    rw [a1] at h5
    obtain ⟨b1, b2, b3⟩ := h5
    have hi : names.length ≤ i := by rw [← h1]; exact List.getElem?_eq_none_iff.1 a2
    subst b1
    have hall : ∀ j < names.length, ∃ n, s.threads[j]? = some (.returned n) := fun j hj => b2 j (by omega)
    have htotal : total = order.length := by
      rw [b3, List.filter_eq_self.2]
      intro x hx
      have := h2 x hx
      exact decide_eq_true (by omega)
    have hpart : part = [] := by
      revert h4
      cases s.mutex with
      | none => exact fun h => h.1
      | some t =>
        rintro ⟨r, n, left, e, name, c1, c2, -⟩
        have : t < s.threads.length := (List.getElem?_eq_some_iff.1 c1).1
        obtain ⟨n', hn'⟩ := hall t (by omega)
        rw [c1] at hn'
        cases hn'
    subst hpart
    refine ⟨order, [], lastLine order.length names.length, h1, h2, h3, h4, ⟨rfl, hall⟩, ?_⟩
    show s.out ++ lastLine total names.length = _
    rw [h6, htotal]
    simp

theorem psteps_inv (cfg : RConfig) (disk : List (Str × List Byte)) (names : List Str) (s : PRead) (hs : PSteps cfg disk names (PRead.start names) s) :
    ∃ order part tail, PInv cfg disk names s order part tail := by
  generalize hi : PRead.start names = s0 at hs
  induction hs with
  | refl => rw [← hi]; exact ⟨_, _, _, pstart_inv cfg disk names⟩
  | tail _ h2 ih => exact pstep_inv cfg disk names _ _ ih h2

theorem text_flatten (order : List (Nat × EventData)) : (order.map fun x => dumpEvent x.2).flatten.flatten = (order.map fun x => eventText x.2).flatten := by
  unfold eventText
  induction order with
  | nil => rfl
  | cons x l ih => simp [ih]

/-- **C96**, for all files, readable or not, and all orders in which threads run. When the program has ended, it has printed whole events, one after the other, and the number of them; the events of each file are those that one reader gets from it until there are no more, in their
order, and none of these threw an exception. -/
theorem C96_output (cfg : RConfig) (disk : List (Str × List Byte)) (names : List Str) (s : PRead) (hs : PSteps cfg disk names (PRead.start names) s) (he : s.main = .ended) :
    ∃ order : List (Nat × EventData),
      s.out.flatten = (order.map fun x => eventText x.2).flatten ++ (str "Printed " ++ dec order.length ++ str " events from " ++ dec names.length ++ str " files" ++ eol) ∧
      (∀ x ∈ order, x.1 < names.length) ∧
      ∀ t name, names[t]? = some name → ∃ k, ∀ fuel, k ≤ fuel → readFile cfg disk fuel name = ((order.filter fun x => x.1 == t).map (·.2), none) := by
  obtain ⟨order, part, tail, h1, h2, h3, h4, h5, h6⟩ := psteps_inv cfg disk names s hs
  rw [he] at h5
  obtain ⟨rfl, b2⟩ := h5
  have hpart : part = [] := by
    revert h4
    cases s.mutex with
    | none => exact fun h => h.1
    | some t =>
      rintro ⟨r, n, left, e, name, c1, c2, -⟩
      have : t < s.threads.length := (List.getElem?_eq_some_iff.1 c1).1
      obtain ⟨n', hn'⟩ := b2 t (by omega)
      rw [c1] at hn'
      cases hn'
  subst hpart
  refine ⟨order, ?_, h2, ?_⟩
  · rw [h6, List.append_nil, List.flatten_append]
    congr 1
    · exact text_flatten order
    · simp [lastLine]
  · intro t name hn
    obtain ⟨n, ht⟩ := b2 t (List.getElem?_eq_some_iff.1 hn).1
    obtain ⟨-, c2⟩ := h3 t _ name ht hn
    refine ⟨(shownOf t order).length + 1, fun fuel hf => ?_⟩
    obtain ⟨k, rfl⟩ := Nat.le.dest hf
    have := c2 k
    rw [show (shownOf t order).length + 1 + k = (shownOf t order).length + k + 1 by omega]
    exact this

/-- **C96**, at any time before: whole events, those of each file being the first ones in it, and perhaps the beginning of one more, also the next one of its file; events of different files are never mixed. -/
theorem C96_never_mixed (cfg : RConfig) (disk : List (Str × List Byte)) (names : List Str) (s : PRead) (hs : PSteps cfg disk names (PRead.start names) s) (he : s.main ≠ .ended) :
    ∃ (order : List (Nat × EventData)) (part : Str), s.out.flatten = (order.map fun x => eventText x.2).flatten ++ part ∧ (∀ x ∈ order, x.1 < names.length) ∧
      (∀ t name, names[t]? = some name → ∃ k, ∀ fuel, k ≤ fuel → ((order.filter fun x => x.1 == t).map (·.2)) <+: (readFile cfg disk fuel name).1) ∧
      (part = [] ∨ ∃ t name e, names[t]? = some name ∧ part <+: eventText e ∧ ∃ k, ∀ fuel, k ≤ fuel → ((order.filter fun x => x.1 == t).map (·.2)) ++ [e] <+: (readFile cfg disk fuel name).1) := by
  obtain ⟨order, part, tail, h1, h2, h3, h4, h5, h6⟩ := psteps_inv cfg disk names s hs
  have htail : tail = [] := by
    revert h5 he
    cases s.main with
    | summing i total => exact fun _ h => h.1
    | ended => exact fun h => absurd rfl h
    | failed e => exact fun _ h => h.1
  subst htail
  have hpre : ∀ name es r, Follows cfg disk name es r → ∃ k, ∀ fuel, k ≤ fuel → es <+: (readFile cfg disk fuel name).1 := by
    intro name es r hf
    refine ⟨es.length, fun fuel hk => ?_⟩
    obtain ⟨k, rfl⟩ := Nat.le.dest hk
    rw [hf k]
    exact ⟨_, rfl⟩
  refine ⟨order, part.flatten, ?_, h2, ?_, ?_⟩
  · rw [h6, List.append_nil, List.flatten_append]
    rw [text_flatten]
  · intro t name hn
    have hlt := (List.getElem?_eq_some_iff.1 hn).1
    have ht := h3 t (s.threads[t]'(by omega)) name (List.getElem?_eq_getElem _) hn
    show ∃ k, ∀ fuel, k ≤ fuel → shownOf t order <+: _
    have hend : ∀ o, (∀ fuel, readFile cfg disk ((shownOf t order).length + fuel + 1) name = (shownOf t order, o)) → ∃ k, ∀ fuel, k ≤ fuel → shownOf t order <+: (readFile cfg disk fuel name).1 := by
      intro o ho
      refine ⟨(shownOf t order).length + 1, fun fuel hk => ?_⟩
      obtain ⟨k, rfl⟩ := Nat.le.dest hk
      rw [show (shownOf t order).length + 1 + k = (shownOf t order).length + k + 1 by omega, ho k]
      exact List.prefix_refl _
    revert ht
    cases s.threads[t]'(by omega) with
    | opening => intro h; rw [show shownOf t order = [] from h]; exact ⟨0, fun _ _ => List.nil_prefix⟩
    | reading r n => exact fun h => hpre _ _ _ h.2
    | locking r n e => exact fun h => (hpre _ _ _ h.2).imp fun k hk fuel hf => (List.prefix_append _ _).trans (hk fuel hf)
    | dumping r n left => exact fun ⟨_, e, h⟩ => (hpre _ _ _ h).imp fun k hk fuel hf => (List.prefix_append _ _).trans (hk fuel hf)
    | returned n => exact fun h => hend _ h.2
    | threw e => exact fun h => hend _ h
  · revert h4
    cases s.mutex with
    | none => exact fun h => .inl (by rw [h.1]; rfl)
    | some t =>
      rintro ⟨r, n, left, e, name, c1, c2, c3, c4, c5⟩
      refine .inr ⟨t, name, e, c2, ?_, hpre _ _ _ c4⟩
      unfold eventText
      rw [c3, List.flatten_append]
      exact ⟨_, rfl⟩

/-- **C96**, exceptions: if the program is ended by an exception, then reading one of the files ends with this exception. -/
theorem C96_exceptions (cfg : RConfig) (disk : List (Str × List Byte)) (names : List Str) (s : PRead) (hs : PSteps cfg disk names (PRead.start names) s) (x : Err) (he : s.main = .failed x) :
    ∃ name ∈ names, ∃ k, ∀ fuel, k ≤ fuel → (readFile cfg disk fuel name).2 = some x := by
  obtain ⟨order, part, tail, h1, h2, h3, h4, h5, h6⟩ := psteps_inv cfg disk names s hs
  rw [he] at h5
  obtain ⟨-, t, ht⟩ := h5
  have hlt : t < s.threads.length := (List.getElem?_eq_some_iff.1 ht).1
  have := h3 t _ (names[t]'(by omega)) ht (List.getElem?_eq_getElem _)
  refine ⟨names[t]'(by omega), List.getElem_mem _, (shownOf t order).length + 1, fun fuel hk => ?_⟩
  obtain ⟨k, rfl⟩ := Nat.le.dest hk
  rw [show (shownOf t order).length + 1 + k = (shownOf t order).length + k + 1 by omega, this k]

/-- **C96**, no deadlock: in every state that the program reaches, it has ended, or one of the threads can go on. -/
theorem C96_goes_on (cfg : RConfig) (disk : List (Str × List Byte)) (names : List Str) (s : PRead) (hs : PSteps cfg disk names (PRead.start names) s) :
    s.main = .ended ∨ (∃ e, s.main = .failed e) ∨ ∃ s', PStep cfg disk names s s' := by
  obtain ⟨order, part, tail, h1, h2, h3, h4, h5, h6⟩ := psteps_inv cfg disk names s hs
  cases hm : s.main with
  | ended => exact .inl rfl
  | failed e => exact .inr (.inl ⟨e, rfl⟩)
  | summing i total =>
    refine .inr (.inr ?_)
    have hdump : ∀ (t : Nat) (r : Reader) (n : Nat) (left : List Str), s.threads[t]? = some (.dumping r n left) → ∃ s', PStep cfg disk names s s' := by
      intro t r n left ht
      cases left with
      | nil => exact ⟨_, .unlock ht⟩
      | cons x left => exact ⟨_, .write ht⟩
    cases ht : s.threads[i]? with
    | none => exact ⟨_, .finish hm ht⟩
    | some th =>
      have hlt : i < s.threads.length := (List.getElem?_eq_some_iff.1 ht).1
      have hn : names[i]? = some (names[i]'(by omega)) := List.getElem?_eq_getElem _
      cases th with
      | opening =>
        cases ho : openOne cfg disk (names[i]'(by omega)) with
        | ok r => exact ⟨_, .opened ht hn ho⟩
        | error e => exact ⟨_, .notOpened ht hn ho⟩
      | reading r n =>
        rcases hr : r.readNextEvent cfg with ⟨_ | (_ | e), r'⟩
        · exact ⟨_, .readFails ht hr⟩
        · exact ⟨_, .done ht hr⟩
        · exact ⟨_, .read ht hr⟩
      | locking r n e =>
        cases hx : s.mutex with
        | none => exact ⟨_, .lock ht hx⟩
        | some v =>
          rw [hx] at h4
          obtain ⟨r, n, left, e, name, c1, -⟩ := h4
          exact hdump v r n left c1
      | dumping r n left => exact hdump i r n left ht
      | returned n => exact ⟨_, .get hm ht⟩
      | threw e => exact ⟨_, .getFails hm ht⟩

/-- Steps for printing events. -/
def printCost (es : List EventData) : Nat := (es.map fun e => (dumpEvent e).length + 3).sum

/-- Steps that are left for a thread whose file has the events `es`. -/
def threadCost (es : List EventData) : FileThread → Nat
  | .opening => printCost es + 2
  | .reading _ n => printCost (es.drop n) + 1
  | .locking _ n e => printCost (es.drop (n + 1)) + (dumpEvent e).length + 3
  | .dumping _ n left => printCost (es.drop (n + 1)) + left.length + 2
  | .returned _ => 0
  | .threw _ => 0

/-- Steps that are left for the main thread. -/
def mainCost (n : Nat) : MainThread → Nat
  | .summing i _ => n - i + 1
  | .ended => 0
  | .failed _ => 0

/-- Steps that are left for the program. -/
def stepsLeft (E : Str → List EventData) (names : List Str) (s : PRead) : Nat := ((names.zip s.threads).map fun x => threadCost (E x.1) x.2).sum + mainCost names.length s.main

theorem cost_set (f : Str → FileThread → Nat) : ∀ (names : List Str) (threads : List FileThread) (t : Nat) (name : Str) (a b : FileThread), names[t]? = some name → threads[t]? = some a →
    f name b < f name a → ((names.zip (threads.set t b)).map fun x => f x.1 x.2).sum < ((names.zip threads).map fun x => f x.1 x.2).sum
  | [], _, _, _, _, _, h, _, _ => by simp at h
  | _ :: _, [], _, _, _, _, _, h, _ => by simp at h
  | n :: names, x :: threads, 0, name, a, b, h1, h2, h3 => by
    simp only [List.getElem?_cons_zero, Option.some.injEq] at h1 h2
    subst h1 h2
    simp only [List.set_cons_zero, List.zip_cons_cons, List.map_cons, List.sum_cons]
    omega
  | n :: names, x :: threads, t + 1, name, a, b, h1, h2, h3 => by
    simp only [List.getElem?_cons_succ] at h1 h2
    have := cost_set f names threads t name a b h1 h2 h3
    simp only [List.set_cons_succ, List.zip_cons_cons, List.map_cons, List.sum_cons]
    omega

theorem step_cost (cfg : RConfig) (disk : List (Str × List Byte)) (names : List Str) (E : Str → List EventData)
    (hE : ∀ name ∈ names, ∃ k o, ∀ fuel, k ≤ fuel → readFile cfg disk fuel name = (E name, o)) (s s' : PRead) (h : ∃ order part tail, PInv cfg disk names s order part tail)
    (hs : PStep cfg disk names s s') : stepsLeft E names s' < stepsLeft E names s := by
  obtain ⟨order, part, tail, h1, h2, h3, h4, h5, h6⟩ := h
  have hn : ∀ (t : Nat) (th : FileThread), s.threads[t]? = some th → ∃ name, names[t]? = some name ∧ name ∈ names := by
    intro t th ht
    have hlt : t < s.threads.length := (List.getElem?_eq_some_iff.1 ht).1
    exact ⟨names[t]'(by omega), List.getElem?_eq_getElem _, List.getElem_mem _⟩
  have hset : ∀ (t : Nat) (name : Str) (a b : FileThread), names[t]? = some name → s.threads[t]? = some a → threadCost (E name) b < threadCost (E name) a →
      ((names.zip (s.threads.set t b)).map fun x => threadCost (E x.1) x.2).sum + mainCost names.length s.main < stepsLeft E names s := by
    intro t name a b g1 g2 g3
    have := cost_set (fun n => threadCost (E n)) names s.threads t name a b g1 g2 g3
    unfold stepsLeft
    omega
  cases hs with
  | @opened t name r a1 a2 a3 => exact hset t name _ _ a2 a1 (by simp [threadCost])
  | @notOpened t name e a1 a2 a3 => exact hset t name _ _ a2 a1 (by simp [threadCost])
  | @read t r r' n e a1 a2 =>
    obtain ⟨name, b1, b2⟩ := hn t _ a1
    obtain ⟨c1, c2⟩ := h3 t _ name a1 b1
    obtain ⟨k, o, hk⟩ := hE name b2
    have c3 := follows_read cfg disk name _ r r' e c2 a2 k
    rw [hk _ (by omega), Prod.mk.injEq] at c3
    refine hset t name _ _ b1 a1 ?_
    have hd : (E name).drop n = e :: (E name).drop (n + 1) := by
      rw [c3.1, c1, List.append_assoc, List.drop_left, List.singleton_append]
      rw [show (shownOf t order).length + 1 = (shownOf t order ++ [e]).length by simp]
      rw [show shownOf t order ++ e :: (readRest cfg k r').1 = (shownOf t order ++ [e]) ++ (readRest cfg k r').1 by simp, List.drop_left]
    show printCost _ + _ + 3 < printCost ((E name).drop n) + 1
    rw [hd]
    simp only [printCost, List.map_cons, List.sum_cons]
    omega
  | @done t r r' n a1 a2 =>
    obtain ⟨name, b1, b2⟩ := hn t _ a1
    exact hset t name _ _ b1 a1 (by simp [threadCost])
  | @readFails t r r' n e a1 a2 =>
    obtain ⟨name, b1, b2⟩ := hn t _ a1
    exact hset t name _ _ b1 a1 (by simp [threadCost])
  | @lock t r n e a1 a2 =>
    obtain ⟨name, b1, b2⟩ := hn t _ a1
    exact hset t name _ _ b1 a1 (by simp only [threadCost]; omega)
  | @write t r n x left a1 =>
    obtain ⟨name, b1, b2⟩ := hn t _ a1
    exact hset t name _ _ b1 a1 (by simp only [threadCost, List.length_cons]; omega)
  | @unlock t r n a1 =>
    obtain ⟨name, b1, b2⟩ := hn t _ a1
    exact hset t name _ _ b1 a1 (by simp only [threadCost, List.length_nil]; omega)
  | @get i total n a1 a2 =>
    have hlt : i < s.threads.length := (List.getElem?_eq_some_iff.1 a2).1
    unfold stepsLeft
    simp only [a1, mainCost]
    omega
  | @getFails i total e a1 a2 =>
    unfold stepsLeft
    simp only [a1, mainCost]
    omega
  | @finish i total a1 a2 =>
    unfold stepsLeft
    simp only [a1, mainCost]
    omega

/-- **C96**, the end: if reading each of the files with one reader ends, with or without an exception, then there is a number of steps after which the program has ended, whatever the order in which threads run. -/
theorem C96_ends (cfg : RConfig) (disk : List (Str × List Byte)) (names : List Str) (hE : ∀ name ∈ names, ∃ k x, ∀ fuel, k ≤ fuel → readFile cfg disk fuel name = x) :
    ∃ bound : Nat, ∀ (f : Nat → PRead) (n : Nat), f 0 = PRead.start names → (∀ i < n, PStep cfg disk names (f i) (f (i + 1))) → n ≤ bound := by
  obtain ⟨E, hE⟩ : ∃ E : Str → List EventData, ∀ name ∈ names, ∃ k o, ∀ fuel, k ≤ fuel → readFile cfg disk fuel name = (E name, o) := by
    classical
    refine ⟨fun name => if h : ∃ es k o, ∀ fuel, k ≤ fuel → readFile cfg disk fuel name = (es, o) then Classical.choose h else [], fun name hn => ?_⟩
    have h : ∃ es k o, ∀ fuel, k ≤ fuel → readFile cfg disk fuel name = (es, o) := by
      obtain ⟨k, x, hk⟩ := hE name hn
      exact ⟨x.1, k, x.2, hk⟩
    simp only [dif_pos h]
    exact Classical.choose_spec h
  refine ⟨stepsLeft E names (PRead.start names), fun f n h0 hf => ?_⟩
  have key : ∀ i, i ≤ n → PSteps cfg disk names (PRead.start names) (f i) ∧ i + stepsLeft E names (f i) ≤ stepsLeft E names (PRead.start names) := by
    intro i
    induction i with
    | zero => intro _; rw [h0]; exact ⟨.refl _, by omega⟩
    | succ i ih =>
      intro hi
      obtain ⟨g1, g2⟩ := ih (by omega)
      have g3 := hf i (by omega)
      have := step_cost cfg disk names E hE _ _ (psteps_inv cfg disk names _ g1) g3
      exact ⟨.tail g1 g3, by omega⟩
  have := (key n (Nat.le_refl _)).2
  omega

theorem rest_of_all (cfg : RConfig) : ∀ (n : Nat) (r : Reader) (es : List EventData), allEvents cfg n r = .ok es → ∀ fuel, n ≤ fuel → readRest cfg fuel r = (es, none)
  | 0, _, _, h, _, _ => by simp [allEvents] at h
  | n + 1, r, es, h, 0, hf => by omega
  | n + 1, r, es, h, fuel + 1, hf => by
    unfold allEvents at h
    unfold readRest
    rcases hr : r.readNextEvent cfg with ⟨_ | (_ | e), r'⟩
    · rw [hr] at h; cases h
    · rw [hr] at h; cases h; rfl
    · rw [hr] at h
      simp only at h ⊢
      cases ha : allEvents cfg n r' with
      | error x => rw [ha] at h; cases h
      | ok es' =>
        rw [ha] at h
        cases h
        rw [rest_of_all cfg n r' es' ha fuel (by omega)]

/-- **C96** with files that LCIO has written: the program does not fail, and for each file exactly the events in it are printed, as they were stored, in their order. -/
theorem C96_files (cfg : RConfig) (hcodec : Lossless cfg.codec) (disk : List (Str × List Byte)) (names : List Str) (contents : Str → List Session)
    (hdisk : ∀ name ∈ names, SessionsOk cfg.codec cfg.std (contents name) ∧ (∃ bytes, disk.lookup name = some bytes ∧ fileAfter cfg.codec cfg.std (contents name) = .ok (some bytes)) ∧
      ∀ h cols buf, Put.event h cols buf ∈ allPuts (contents name) → Storable cfg.std cfg.ignoreNull [] cfg.wanted h cols) :
    (∃ bound : Nat, ∀ (f : Nat → PRead) (n : Nat), f 0 = PRead.start names → (∀ i < n, PStep cfg disk names (f i) (f (i + 1))) → n ≤ bound) ∧
    ∀ s, PSteps cfg disk names (PRead.start names) s → (∀ e, s.main ≠ .failed e) ∧ (s.main = .ended →
      ∃ order : List (Nat × EventData),
        s.out.flatten = (order.map fun x => eventText x.2).flatten ++ (str "Printed " ++ dec order.length ++ str " events from " ++ dec names.length ++ str " files" ++ eol) ∧
        (∀ x ∈ order, x.1 < names.length) ∧
        ∀ t name, names[t]? = some name →
          All2 (fun p e => ∃ h cols buf T, p = .event h cols buf ∧ storeLoadEvent cfg.std cfg.ignoreNull [] cfg.wanted buf 0 1 h cols = .ok e ∧
            LoadedEvent (wantedCols cfg.wanted (storedCols [] cols)) h e.1 e.2 T (fun _ _ _ => True)) ((allPuts (contents name)).filter Put.isEvent) ((order.filter fun x => x.1 == t).map (·.2))) := by
  have hread : ∀ name ∈ names, ∃ k es, (∀ fuel, k ≤ fuel → readFile cfg disk fuel name = (es, none)) ∧
      All2 (fun p e => ∃ h cols buf T, p = .event h cols buf ∧ storeLoadEvent cfg.std cfg.ignoreNull [] cfg.wanted buf 0 1 h cols = .ok e ∧
        LoadedEvent (wantedCols cfg.wanted (storedCols [] cols)) h e.1 e.2 T (fun _ _ _ => True)) ((allPuts (contents name)).filter Put.isEvent) es := by
    intro name hn
    obtain ⟨h1, ⟨bytes, h2, h3⟩, h4⟩ := hdisk name hn
    obtain ⟨bytes', r, es, g1, g2, g3, g4⟩ := C31_all_events cfg hcodec (contents name) h1 h4 name
    rw [h3] at g1
    cases g1
    refine ⟨(allPuts (contents name)).length + 1, es, fun fuel hf => ?_, g4⟩
    unfold readFile openOne
    rw [h2]
    simp only [g2]
    exact rest_of_all cfg _ r es g3 fuel hf
  refine ⟨C96_ends cfg disk names fun name hn => ?_, fun s hs => ⟨fun e he => ?_, fun he => ?_⟩⟩
  · obtain ⟨k, es, h1, -⟩ := hread name hn
    exact ⟨k, _, h1⟩
  · obtain ⟨name, hn, k, hk⟩ := C96_exceptions cfg disk names s hs e he
    obtain ⟨k', es, h1, -⟩ := hread name hn
    have := hk (k + k') (by omega)
    rw [h1 (k + k') (by omega)] at this
    cases this
  · obtain ⟨order, h1, h2, h3⟩ := C96_output cfg disk names s hs he
    refine ⟨order, h1, h2, fun t name hn => ?_⟩
    obtain ⟨k, hk⟩ := h3 t name hn
    obtain ⟨k', es, g1, g2⟩ := hread name (List.mem_of_getElem? hn)
    have := hk (k + k') (by omega)
    rw [g1 (k + k') (by omega), Prod.mk.injEq] at this
    rw [← this.1]
    exact g2

/-- The hypotheses are met by two files on a disk. -/
example : ∃ bytes, ∀ name ∈ [str "f", str "g"], SessionsOk sampleCfg.codec sampleCfg.std sampleSessions ∧
    (∃ b, [(str "f", bytes), (str "g", bytes)].lookup name = some b ∧ fileAfter sampleCfg.codec sampleCfg.std sampleSessions = .ok (some b)) ∧
    ∀ h cols buf, Put.event h cols buf ∈ allPuts sampleSessions → Storable sampleCfg.std sampleCfg.ignoreNull [] sampleCfg.wanted h cols := by
  obtain ⟨bytes, r, es, g1, -⟩ := C31_all_events sampleCfg idCodec_lossless sampleSessions sampleSessions_ok sampleSessions_storable (str "f")
  refine ⟨bytes, fun name hn => ⟨sampleSessions_ok, ⟨bytes, ?_, g1⟩, sampleSessions_storable⟩⟩
  simp only [List.mem_cons, List.not_mem_nil, or_false] at hn
  rcases hn with rfl | rfl <;> rfl

/-- What is printed for an event with a collection. -/
example : eventText ({ run := 3, evt := 9, det := str "ILD" }, [(str "MC", mcCol [(5, [])])]) =
    str "///////////////////////////////////" ++ eol ++ str "EVENT: 9" ++ eol ++ str "RUN: 3" ++ eol ++ str "DETECTOR: ILD" ++ eol ++ str "COLLECTIONS: (see below)" ++ eol ++
    str "///////////////////////////////////" ++ eol ++ eol ++
    str "---------------------------------------------------------------------------" ++ eol ++
    str "COLLECTION NAME               COLLECTION TYPE          NUMBER OF ELEMENTS  " ++ eol ++
    str "===========================================================================" ++ eol ++
    str "MC                            MCParticle                       1" ++ eol ++
    str "---------------------------------------------------------------------------" ++ eol ++ eol ++ eol ++ eol := by decide +kernel

/-- If one of the files cannot be opened, the program can be ended by the exception before any event of the other files is printed. -/
theorem C96_missing_file (cfg : RConfig) (disk : List (Str × List Byte)) (name : Str) (names : List Str) (h : disk.lookup name = none) :
    ∃ s, PSteps cfg disk (name :: names) (PRead.start (name :: names)) s ∧ s.main = .failed .notOpen ∧ s.out = [] := by
  refine ⟨_, .tail (.tail (.refl _) (.notOpened (t := 0) (name := name) (e := .notOpen) rfl rfl ?_)) (.getFails rfl rfl), rfl, rfl⟩
  simp [openOne, h]

end Props
