import Verif.Util.Lsh
import Verif.Util.PidLemmas
import Verif.Util.TextLemmas
import Verif.Lcio.CountsLemmas
import Verif.Spec.Sessions
/-
Lemmas about the shell: its loops, its maps and the texts of its commands.
-/
namespace Util
open Sio Lcio Spec

theorem same_hasNext {r r' : Reader} (h : Same r r') : r'.hasNext = r.hasNext := by
  unfold Reader.hasNext
  rw [h.files, h.index]

/-! ## Loops -/

theorem runLoop_all (cfg : RConfig) : ∀ (n : Nat) (r : Reader) (es : List RunHeader) (runs : List (Int × Str)) (counts : List (Int × Nat)), r.hasNext = false →
    allRuns cfg n r = .ok es → ∃ r', lshRunLoop cfg n r runs counts = .ok (es.foldl (fun m h => omInsert intLt h.run.toInt h.descr m) runs,
      es.foldl (fun m h => omInsert intLt h.run.toInt 0 m) counts, r') ∧ Same r r' := by
  intro n
  induction n with
  | zero => intro r es runs counts _ h; simp [allRuns] at h
  | succ n ih =>
    intro r es runs counts hn h
    have hs := readNextRun_same cfg r hn
    unfold allRuns at h
    unfold lshRunLoop
    cases hr : r.readNextRunHeader cfg with
    | mk a r1 =>
      rw [hr] at h hs
      cases a with
      | error e => cases h
      | ok a =>
        cases a with
        | none => cases h; exact ⟨r1, rfl, hs⟩
        | some x =>
          simp only at h hs ⊢
          cases ha : allRuns cfg n r1 with
          | error e => rw [ha] at h; cases h
          | ok es' =>
            rw [ha] at h
            cases h
            obtain ⟨r', e1, e2⟩ := ih r1 es' (omInsert intLt x.run.toInt x.descr runs) (omInsert intLt x.run.toInt 0 counts) (by rw [same_hasNext hs, hn]) ha
            exact ⟨r', e1, hs.trans e2⟩

theorem eventLoop_all (cfg : RConfig) : ∀ (n : Nat) (r : Reader) (es : List EventData) (counts : List (Int × Nat)) (k : Nat), r.hasNext = false →
    allEvents cfg n r = .ok es → ∃ r', lshEventLoop cfg n r counts k = .ok (es.foldl (fun m e => countUp e.1.run.toInt m) counts, k + es.length, r') ∧ Same r r' := by
  intro n
  induction n with
  | zero => intro r es counts k _ h; simp [allEvents] at h
  | succ n ih =>
    intro r es counts k hn h
    have hs := readNextEvent_same cfg r hn
    unfold allEvents at h
    unfold lshEventLoop
    cases hr : r.readNextEvent cfg with
    | mk a r1 =>
      rw [hr] at h hs
      cases a with
      | error e => cases h
      | ok a =>
        cases a with
        | none => cases h; exact ⟨r1, rfl, hs⟩
        | some x =>
          simp only at h hs ⊢
          cases ha : allEvents cfg n r1 with
          | error e => rw [ha] at h; cases h
          | ok es' =>
            rw [ha] at h
            cases h
            obtain ⟨r', e1, e2⟩ := ih r1 es' (countUp x.1.run.toInt counts) (k + 1) (by rw [same_hasNext hs, hn]) ha
            refine ⟨r', ?_, hs.trans e2⟩
            rw [e1, List.foldl_cons, List.length_cons, Nat.add_right_comm, Nat.add_assoc]

theorem lsEventLoop_all (cfg : RConfig) (run : Int) : ∀ (n : Nat) (r : Reader) (es : List EventData), r.hasNext = false →
    allEvents cfg n r = .ok es → ∃ r', lsEventLoop cfg run n r =
      .ok ((es.filter fun e => decide (e.1.run.toInt = run)).map fun e => .event e.1.evt.toInt e.2.length, r') ∧ Same r r' := by
  intro n
  induction n with
  | zero => intro r es _ h; simp [allEvents] at h
  | succ n ih =>
    intro r es hn h
    have hs := readNextEvent_same cfg r hn
    unfold allEvents at h
    unfold lsEventLoop
    cases hr : r.readNextEvent cfg with
    | mk a r1 =>
      rw [hr] at h hs
      cases a with
      | error e => cases h
      | ok a =>
        cases a with
        | none => cases h; exact ⟨r1, rfl, hs⟩
        | some x =>
          simp only at h hs ⊢
          cases ha : allEvents cfg n r1 with
          | error e => rw [ha] at h; cases h
          | ok es' =>
            rw [ha] at h
            cases h
            obtain ⟨r', e1, e2⟩ := ih r1 es' (by rw [same_hasNext hs, hn]) ha
            refine ⟨r', ?_, hs.trans e2⟩
            rw [e1]
            simp only [List.filter_cons]
            by_cases hx : x.1.run.toInt = run
            · simp [hx]
            · simp [hx]

theorem dumpRunLoop_all (cfg : RConfig) (run : Int) : ∀ (n : Nat) (r : Reader) (es : List RunHeader) (done : Bool), r.hasNext = false →
    allRuns cfg n r = .ok es → ∃ r', dumpRunLoop cfg run n r done =
      .ok (if done then [] else (es.find? fun h => decide (h.run.toInt = run)).toList.map .header, r') ∧ Same r r' := by
  intro n
  induction n with
  | zero => intro r es done _ h; simp [allRuns] at h
  | succ n ih =>
    intro r es done hn h
    have hs := readNextRun_same cfg r hn
    unfold allRuns at h
    unfold dumpRunLoop
    cases hr : r.readNextRunHeader cfg with
    | mk a r1 =>
      rw [hr] at h hs
      cases a with
      | error e => cases h
      | ok a =>
        cases a with
        | none => cases h; exact ⟨r1, by cases done <;> rfl, hs⟩
        | some x =>
          simp only at h hs ⊢
          cases ha : allRuns cfg n r1 with
          | error e => rw [ha] at h; cases h
          | ok es' =>
            rw [ha] at h
            cases h
            cases done with
            | true => exact ⟨r1, rfl, hs⟩
            | false =>
              simp only [Bool.false_eq_true, if_false, List.find?_cons]
              by_cases hx : x.run.toInt = run
              · obtain ⟨r', e1, e2⟩ := ih r1 es' true (by rw [same_hasNext hs, hn]) ha
                refine ⟨r', ?_, hs.trans e2⟩
                rw [if_pos hx, e1]
                simp [hx]
              · obtain ⟨r', e1, e2⟩ := ih r1 es' false (by rw [same_hasNext hs, hn]) ha
                refine ⟨r', ?_, hs.trans e2⟩
                rw [if_neg hx, e1]
                simp [hx]

/-- Searching changes only where the reader stands. -/
theorem search_same (cfg : RConfig) (r : Reader) (hm : r.readMap = false) (run evt : W32) : (r.readEvent cfg run evt).2.files = r.files ∧
    (r.readEvent cfg run evt).2.index = r.index := by
  unfold Reader.readEvent
  rw [hm]
  simp only [Bool.false_eq_true, if_false]
  split
  · split
    · exact ⟨rfl, rfl⟩
    · split <;> exact ⟨rfl, rfl⟩
  · exact ⟨rfl, rfl⟩
  · exact ⟨rfl, rfl⟩

/-! ## Maps -/

theorem mem_insert {V : Type} (k : Int) (v : V) (m : List (Int × V)) (hm : Ordered intLt m) (n : Int) (d : V) :
    (n, d) ∈ omInsert intLt k v m ↔ (n, d) ∈ m ∨ (n = k ∧ d = v ∧ ∀ d', (k, d') ∉ m) := by
  induction m with
  | nil => simp [omInsert]
  | cons x m ih =>
    obtain ⟨a, b⟩ := x
    obtain ⟨h1, h2⟩ := List.pairwise_cons.1 hm
    have ih := ih h2
    unfold omInsert
    simp only [intLt, decide_eq_true_eq]
    split
    · rename_i hlt
      have hno : ∀ d', (k, d') ∉ (a, b) :: m := by
        intro d' hd
        rcases List.mem_cons.1 hd with hd | hd
        · simp only [Prod.mk.injEq] at hd; omega
        · have := h1 _ hd
          simp only [intLt, decide_eq_true_eq] at this
          omega
      rw [List.mem_cons, Prod.mk.injEq]
      constructor
      · rintro (⟨rfl, rfl⟩ | h)
        · exact .inr ⟨rfl, rfl, hno⟩
        · exact .inl h
      · rintro (h | ⟨rfl, rfl, -⟩)
        · exact .inr h
        · exact .inl ⟨rfl, rfl⟩
    · split
      · rename_i hlt hgt
        have hno : ∀ d', (k, d') ≠ (a, b) := by intro d' hd; simp only [Prod.mk.injEq] at hd; omega
        rw [List.mem_cons, ih, List.mem_cons, or_assoc]
        refine or_congr Iff.rfl (or_congr Iff.rfl (and_congr Iff.rfl (and_congr Iff.rfl (forall_congr' fun d' => ?_))))
        rw [List.mem_cons, not_or]
        exact ⟨fun h => ⟨hno d', h⟩, fun h => h.2⟩
      · rename_i hlt hgt
        have : k = a := by omega
        subst this
        refine ⟨.inl, ?_⟩
        rintro (h | ⟨-, -, h⟩)
        · exact h
        · exact absurd (List.mem_cons_self ..) (h b)

theorem lsh_ordered {V : Type} (k : Int) (v : V) (m : List (Int × V)) (hm : Ordered intLt m) : Ordered intLt (omInsert intLt k v m) := by
  induction m with
  | nil => simp [omInsert, Ordered]
  | cons x m ih =>
    obtain ⟨a, b⟩ := x
    obtain ⟨h1, h2⟩ := List.pairwise_cons.1 hm
    have ih := ih h2
    unfold omInsert
    simp only [intLt, decide_eq_true_eq]
    split
    · rename_i hlt
      refine List.pairwise_cons.2 ⟨fun y hy => ?_, hm⟩
      simp only [intLt, decide_eq_true_eq]
      rcases List.mem_cons.1 hy with rfl | hy
      · exact hlt
      · have := h1 _ hy
        simp only [intLt, decide_eq_true_eq] at this
        omega
    · split
      · rename_i hlt hgt
        refine List.pairwise_cons.2 ⟨fun y hy => ?_, ih⟩
        rcases (mem_insert k v m h2 y.1 y.2).1 hy with hy | ⟨hy, -, -⟩
        · exact h1 _ hy
        · simp only [intLt, decide_eq_true_eq, hy]
          exact hgt
      · exact hm

/-- All run headers inserted: the first with a number counts. -/
theorem fold_insert {α V : Type} (key : α → Int) (val : α → V) (hs : List α) (m : List (Int × V)) (hm : Ordered intLt m) :
    Ordered intLt (hs.foldl (fun m h => omInsert intLt (key h) (val h) m) m) ∧ ∀ n d, (n, d) ∈ hs.foldl (fun m h => omInsert intLt (key h) (val h) m) m ↔
      (n, d) ∈ m ∨ ((∀ d', (n, d') ∉ m) ∧ ((hs.map fun h => (key h, val h)).find? fun x => decide (x.1 = n)) = some (n, d)) := by
  induction hs generalizing m with
  | nil => exact ⟨hm, fun n d => by simp⟩
  | cons h hs ih =>
    obtain ⟨i1, i2⟩ := ih _ (lsh_ordered (key h) (val h) m hm)
    refine ⟨i1, fun n d => ?_⟩
    rw [List.foldl_cons, i2, mem_insert _ _ _ hm]
    simp only [List.map_cons, List.find?_cons]
    by_cases hk : key h = n
    · subst hk
      simp only [decide_true, Option.some.injEq, Prod.mk.injEq, true_and]
      constructor
      · rintro ((h' | ⟨rfl, h'⟩) | ⟨h', -⟩)
        · exact .inl h'
        · exact .inr ⟨h', rfl⟩
        · by_cases hx : ∃ d', (key h, d') ∈ m
          · obtain ⟨d', hx⟩ := hx
            exact absurd ((mem_insert _ _ _ hm _ _).2 (.inl hx)) (h' d')
          · exact absurd ((mem_insert _ _ _ hm _ _).2 (.inr ⟨rfl, rfl, fun d' hd => hx ⟨d', hd⟩⟩)) (h' (val h))
      · rintro (h' | ⟨h', rfl⟩)
        · exact .inl (.inl h')
        · exact .inl (.inr ⟨rfl, h'⟩)
    · simp only [hk, decide_false]
      have : ¬ n = key h := fun h' => hk h'.symm
      simp only [this, false_and, or_false]
      refine or_congr Iff.rfl (and_congr (forall_congr' fun d' => ?_) Iff.rfl)
      rw [mem_insert _ _ _ hm]
      simp [this]

theorem find_countUp (k : Int) (m : List (Int × Nat)) (n : Int) : (omFind intLt n (countUp k m)).getD 0 = (omFind intLt n m).getD 0 + if k = n then 1 else 0 := by
  unfold countUp
  rw [omFind_assign intWeak]
  by_cases h : k = n
  · subst h
    simp [eqv, intLt]
  · have : eqv intLt k n = false := by
      simp only [eqv, intLt]
      rcases Int.lt_or_gt_of_ne h with h' | h' <;> simp [h']
    simp [this, h]

theorem fold_countUp {α : Type} (key : α → Int) (es : List α) (m : List (Int × Nat)) (n : Int) :
    (omFind intLt n (es.foldl (fun m e => countUp (key e) m) m)).getD 0 = (omFind intLt n m).getD 0 + es.countP fun e => decide (key e = n) := by
  induction es generalizing m with
  | nil => rfl
  | cons e es ih =>
    rw [List.foldl_cons, ih, find_countUp, List.countP_cons]
    simp only [decide_eq_true_eq]
    omega

/-- A map of zeros. -/
theorem fold_zeros {α : Type} (key : α → Int) (hs : List α) (m : List (Int × Nat)) (hm : ∀ x ∈ m, x.2 = 0) :
    ∀ x ∈ hs.foldl (fun m h => omInsert intLt (key h) 0 m) m, x.2 = 0 := by
  induction hs generalizing m with
  | nil => exact hm
  | cons h hs ih =>
    refine ih _ ?_
    clear ih
    induction m with
    | nil => intro x hx; simp only [omInsert, List.mem_singleton] at hx; rw [hx]
    | cons y m ih =>
      obtain ⟨a, b⟩ := y
      intro x hx
      simp only [omInsert] at hx
      split at hx
      · rcases List.mem_cons.1 hx with rfl | hx
        · rfl
        · exact hm x hx
      · split at hx
        · rcases List.mem_cons.1 hx with rfl | hx
          · exact hm _ (by simp)
          · exact ih (fun x hx => hm x (List.mem_cons_of_mem _ hx)) x hx
        · exact hm x hx

theorem find_zero (n : Int) (m : List (Int × Nat)) (hm : ∀ x ∈ m, x.2 = 0) : (omFind intLt n m).getD 0 = 0 := by
  unfold omFind
  cases h : m.find? fun e => eqv intLt e.1 n with
  | none => rfl
  | some x => exact hm x (List.mem_of_find?_eq_some h)

/-! ## Texts -/

theorem readUnsigned_dec (n : Nat) (hn : n < 2 ^ 32) : readUnsigned (dec n) = BitVec.ofNat 32 n := by
  unfold readUnsigned
  have hd := dec_digits n
  have hv := dec_value n
  split
  · rename_i cs h
    have := hd 45 (by rw [h]; simp)
    exact absurd this (by decide)
  · rename_i cs h
    have := hd 43 (by rw [h]; simp)
    exact absurd this (by decide)
  · simp only [hv, hn, if_true]

/-- A part without slashes. -/
theorem pathLoop_part (part w : Str) (hw : 47 ∉ w) (rest : Str) : pathLoop part (w ++ rest) = pathLoop (part ++ w) rest := by
  induction w generalizing part with
  | nil => simp
  | cons c w ih =>
    simp only [List.cons_append, pathLoop]
    rw [if_neg (fun h => hw (by rw [h]; simp)), ih _ (fun h => hw (List.mem_cons_of_mem _ h))]
    simp

theorem pathLoop_end (w : Str) (hw : 47 ∉ w) (hne : w ≠ []) : pathLoop [] w = [w] := by
  have := pathLoop_part [] w hw []
  rw [List.append_nil] at this
  rw [this, List.nil_append, pathLoop, if_neg hne]

theorem pathLoop_slash (w : Str) (hw : 47 ∉ w) (hne : w ≠ []) (rest : Str) : pathLoop [] (w ++ 47 :: rest) = w :: pathLoop [] rest := by
  rw [pathLoop_part [] w hw, List.nil_append, pathLoop, if_pos rfl, if_neg hne]

end Util
