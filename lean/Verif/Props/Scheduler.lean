import Verif.Util.Scheduler
import Verif.Props.Counts
import Verif.Props.Merge
/-
C90: events that are processed in parallel.
-/
namespace Props
open Sio Spec Lcio Util

/-- What has been dealt with up to the last run header, and the lines printed for it. -/
inductive SoFar : List Delivery → List Delivery → Prop
  | nil : SoFar [] []
  | snoc {a l es log : List Delivery} {h : RunHeader} : SoFar a l → OnlyEvents es → log.Perm es → SoFar (a ++ es ++ [.run h]) (l ++ log ++ [.run h])

theorem soFar_append {a l : List Delivery} (h : SoFar a l) {b m : List Delivery} (hb : InParallel b m) : InParallel (a ++ b) (l ++ m) := by
  induction h generalizing b m with
  | nil => exact hb
  | @snoc a l es log hd _ h2 h3 ih =>
    have := ih (InParallel.run (h := hd) h2 h3 hb)
    simpa using this

/-- What the main thread has taken from the reader and not yet dealt with. -/
def _root_.Util.Phase.pending : Phase → List Delivery
  | .starting e => [.event e]
  | .polling e _ => [.event e]
  | .waiting (some h) _ => [.run h]
  | _ => []

/-- The events of tasks. -/
def eventsOf (ts : List Task) : List Delivery := ts.map fun t => .event t.event
/-- The events of tasks that have printed. -/
def printedOf (ts : List Task) : List Delivery := (ts.filter fun t => t.state ≠ .started).map fun t => .event t.event

/-- What is true at any time. -/
structure SchedInv (maxNTasks : Nat) (ds : List Delivery) (s : Sched) : Prop where
  /-- Tasks up to the last run header have finished; what has been printed since is what the others have printed. -/
  log : ∃ a l old cur log, SoFar a l ∧ s.tasks = old ++ cur ∧ (∀ t ∈ old, t.state = .finished) ∧ s.printed = l ++ log ∧ log.Perm (printedOf cur) ∧
    ds = a ++ eventsOf cur ++ s.phase.pending ++ s.left
  nodup : s.futures.Nodup
  known : ∀ t ∈ s.futures, t < s.tasks.length
  /-- Tasks that have not returned have a future. -/
  running : ∀ (t : Nat) x, s.tasks[t]? = some x → x.state ≠ .finished → t ∈ s.futures
  few : s.futures.length ≤ maxNTasks
  waited : ∀ h i, s.phase = .waiting h i → ∀ (j : Nat), j < i → ∀ t x, s.futures[j]? = some t → s.tasks[t]? = some x → x.state = .finished
  last : (∀ i, s.phase = .waiting none i → s.left = []) ∧ (s.phase = .ended → s.left = [] ∧ s.futures = [])

theorem onlyEvents_of (ts : List Task) : OnlyEvents (eventsOf ts) := by
  intro d hd
  obtain ⟨t, -, rfl⟩ := List.mem_map.1 hd
  exact ⟨_, rfl⟩

theorem printedOf_append (a b : List Task) : printedOf (a ++ b) = printedOf a ++ printedOf b := by
  unfold printedOf
  rw [List.filter_append, List.map_append]

theorem printedOf_all (ts : List Task) (h : ∀ t ∈ ts, t.state = .finished) : printedOf ts = eventsOf ts := by
  unfold printedOf eventsOf
  rw [List.filter_eq_self.2]
  intro t ht
  rw [h t ht]
  decide

/-- Replacing a task by one with the same event. -/
theorem eventsOf_set (ts : List Task) (i : Nat) (x y : Task) (h : ts[i]? = some x) (he : y.event = x.event) : eventsOf (ts.set i y) = eventsOf ts := by
  unfold eventsOf
  refine List.ext_getElem? fun j => ?_
  rw [List.getElem?_map, List.getElem?_map, List.getElem?_set]
  split
  · next hij =>
    subst hij
    rw [h]
    split
    · simp [he]
    · next hlt => exact absurd (List.getElem?_eq_some_iff.1 h).1 hlt
  · rfl

theorem printedOf_set (ts : List Task) (i : Nat) (x y : Task) (h : ts[i]? = some x) (he : y.event = x.event) :
    (x.state = .started → y.state ≠ .started → (printedOf ts ++ [Delivery.event x.event]).Perm (printedOf (ts.set i y))) ∧
    (x.state ≠ .started → y.state ≠ .started → printedOf (ts.set i y) = printedOf ts) := by
  obtain ⟨hi, hx⟩ := List.getElem?_eq_some_iff.1 h
  have e1 : ts = ts.take i ++ x :: ts.drop (i + 1) := by
    rw [← hx, ← List.drop_eq_getElem_cons hi, List.take_append_drop]
  have e2 : ts.set i y = ts.take i ++ y :: ts.drop (i + 1) := List.set_eq_take_append_cons_drop ▸ by simp [hi]
  have e3 : ∀ z : Task, printedOf (ts.take i ++ z :: ts.drop (i + 1)) = printedOf (ts.take i) ++ (if z.state ≠ .started then [Delivery.event z.event] else []) ++ printedOf (ts.drop (i + 1)) := by
    intro z
    unfold printedOf
    rw [List.filter_append, List.filter_cons, List.map_append]
    by_cases hz : z.state ≠ .started
    · rw [if_pos (by simpa using hz), if_pos hz]; simp
    · rw [if_neg (by simpa using hz), if_neg hz]; simp
  constructor
  · intro h1 h2
    rw [e2, e3 y]
    conv => lhs; rw [e1, e3 x]
    rw [if_neg (by simp [h1]), if_pos h2, he, List.append_nil, List.append_assoc]
    refine List.Perm.trans ?_ (by rw [List.append_assoc])
    exact List.Perm.append_left _ List.perm_append_comm
  · intro h1 h2
    rw [e2, e3 y]
    conv => rhs; rw [e1, e3 x]
    rw [if_pos h1, if_pos h2, he]

theorem start_inv (maxNTasks : Nat) (ds : List Delivery) : SchedInv maxNTasks ds { left := ds } := by
  refine ⟨⟨[], [], [], [], [], .nil, rfl, by simp, rfl, .nil, rfl⟩, List.nodup_nil, by simp, by simp, Nat.zero_le _, ?_, ?_, ?_⟩
  · intro h i hp; cases hp
  · intro i hp; cases hp
  · intro hp; cases hp

theorem step_inv (maxNTasks : Nat) (ds : List Delivery) (s s' : Sched) (h : SchedInv maxNTasks ds s) (hs : Step maxNTasks s s') : SchedInv maxNTasks ds s' := by
  obtain ⟨⟨a, l, old, cur, log, g1, g2, g3, g4, g5, g6⟩, hn, hk, hr, hf, hw, hl⟩ := h
  -- a task in the list of all
  have hset : ∀ (t : Nat) (x y : Task), s.tasks[t]? = some x → y.event = x.event → x.state ≠ .finished →
      ∃ cur', s.tasks.set t y = old ++ cur' ∧ eventsOf cur' = eventsOf cur ∧
        (x.state = .started → y.state ≠ .started → (printedOf cur ++ [Delivery.event x.event]).Perm (printedOf cur')) ∧ (x.state ≠ .started → y.state ≠ .started → printedOf cur' = printedOf cur) := by
    intro t x y hx he hns
    rw [g2] at hx ⊢
    by_cases ht : t < old.length
    · rw [List.getElem?_append_left ht] at hx
      exact absurd (g3 x (List.mem_of_getElem? hx)) hns
    · rw [List.getElem?_append_right (by omega)] at hx
      refine ⟨cur.set (t - old.length) y, List.set_append_right _ _ (by omega), eventsOf_set _ _ _ _ hx he, printedOf_set _ _ _ _ hx he⟩
  cases hs with
  | readEvent h1 h2 =>
    refine ⟨⟨a, l, old, cur, log, g1, g2, g3, g4, g5, ?_⟩, hn, hk, hr, hf, (fun h i hp => nomatch hp), (fun i hp => nomatch hp), fun hp => nomatch hp⟩
    rw [g6, h1, h2]; simp [Phase.pending]
  | readRun h1 h2 =>
    refine ⟨⟨a, l, old, cur, log, g1, g2, g3, g4, g5, ?_⟩, hn, hk, hr, hf, ?_, (fun i hp => nomatch hp), fun hp => nomatch hp⟩
    · rw [g6, h1, h2]; simp [Phase.pending]
    · intro h i hp j hj
      cases hp
      omega
  | readEnd h1 h2 =>
    refine ⟨⟨a, l, old, cur, log, g1, g2, g3, g4, g5, ?_⟩, hn, hk, hr, hf, ?_, (fun i _ => h2), fun hp => nomatch hp⟩
    · rw [g6, h1]; simp [Phase.pending]
    · intro h i hp j hj
      cases hp
      omega
  | @start e h1 h2 =>
    refine ⟨⟨a, l, old, cur ++ [⟨e, .started⟩], log, g1, by simp only [g2, List.append_assoc], g3, g4, ?_, ?_⟩, ?_, ?_, ?_, ?_, (fun h i hp => nomatch hp), (fun i hp => nomatch hp), fun hp => nomatch hp⟩
    · rw [printedOf_append]
      simpa [printedOf] using g5
    · rw [g6, h1]; simp [Phase.pending, eventsOf]
    · simp only
      rw [List.nodup_append]
      refine ⟨hn, by simp, ?_⟩
      intro x hx y hy
      have := hk x hx
      simp only [List.mem_cons, List.not_mem_nil, or_false] at hy
      omega
    · intro t ht
      simp only [List.mem_append, List.mem_cons, List.not_mem_nil, or_false] at ht
      simp only [List.length_append, List.length_cons, List.length_nil]
      rcases ht with ht | ht
      · have := hk t ht; omega
      · omega
    · intro t x hx hxs
      simp only [List.mem_append, List.mem_cons, List.not_mem_nil, or_false]
      simp only at hx
      by_cases ht : t < s.tasks.length
      · rw [List.getElem?_append_left ht] at hx
        exact .inl (hr t x hx hxs)
      · right
        have := (List.getElem?_eq_some_iff.1 hx).1
        simp only [List.length_append, List.length_cons, List.length_nil] at this
        omega
    · simp only [List.length_append, List.length_cons, List.length_nil]; omega
  | busy h1 h2 =>
    refine ⟨⟨a, l, old, cur, log, g1, g2, g3, g4, g5, ?_⟩, hn, hk, hr, hf, (fun h i hp => nomatch hp), (fun i hp => nomatch hp), fun hp => nomatch hp⟩
    rw [g6, h1]; rfl
  | @ready e i t x h1 h2 h3 h4 =>
    refine ⟨⟨a, l, old, cur, log, g1, g2, g3, g4, g5, g6⟩, hn.sublist (List.eraseIdx_sublist ..), fun t ht => hk t (List.mem_of_mem_eraseIdx ht), ?_, ?_, ?_, ?_, ?_⟩
    · intro u y hy hys
      have hu := hr u y hy hys
      simp only
      rw [List.mem_eraseIdx_iff_getElem?]
      obtain ⟨j, hj⟩ := List.getElem?_of_mem hu
      refine ⟨j, ?_, hj⟩
      intro hji
      subst hji
      rw [h2] at hj
      cases hj
      rw [h3] at hy
      cases hy
      exact hys h4
    · exact Nat.le_trans (List.length_eraseIdx_le ..) hf
    · intro h i hp
      rw [h1] at hp; cases hp
    · intro i hp
      rw [h1] at hp; cases hp
    · intro hp
      rw [h1] at hp; cases hp
  | notReady h1 h2 h3 h4 =>
    refine ⟨⟨a, l, old, cur, log, g1, g2, g3, g4, g5, ?_⟩, hn, hk, hr, hf, (fun h i hp => nomatch hp), (fun i hp => nomatch hp), fun hp => nomatch hp⟩
    rw [g6, h1]; rfl
  | polled h1 h2 =>
    refine ⟨⟨a, l, old, cur, log, g1, g2, g3, g4, g5, ?_⟩, hn, hk, hr, hf, (fun h i hp => nomatch hp), (fun i hp => nomatch hp), fun hp => nomatch hp⟩
    rw [g6, h1]; rfl
  | @get h0 i t x h1 h2 h3 h4 =>
    refine ⟨⟨a, l, old, cur, log, g1, g2, g3, g4, g5, ?_⟩, hn, hk, hr, hf, ?_, ?_, fun hp => nomatch hp⟩
    · rw [g6, h1]; cases h0 <;> rfl
    · intro h j hp m hm u y hu hy
      cases hp
      by_cases hmi : m = i
      · subst hmi
        rw [h2] at hu
        cases hu
        rw [h3] at hy
        cases hy
        exact h4
      · exact hw _ _ h1 m (by omega) u y hu hy
    · intro j hp
      cases hp
      exact hl.1 _ h1
  | @waited h0 i h1 h2 =>
    have hall : ∀ t ∈ s.tasks, t.state = .finished := by
      intro x hx
      obtain ⟨t, ht⟩ := List.getElem?_of_mem hx
      by_cases hxs : x.state = .finished
      · exact hxs
      · obtain ⟨j, hj⟩ := List.getElem?_of_mem (hr t x ht hxs)
        have := (List.getElem?_eq_some_iff.1 hj).1
        rw [List.getElem?_eq_none_iff] at h2
        exact hw _ _ h1 j (by omega) t x hj ht
    have hp : log.Perm (eventsOf cur) := by rw [← printedOf_all cur fun t ht => hall t (by rw [g2]; simp [ht])]; exact g5
    refine ⟨⟨_, _, s.tasks, [], [], SoFar.snoc (h := h0) g1 (onlyEvents_of cur) hp, by simp, hall, ?_, List.Perm.nil, ?_⟩, List.nodup_nil, by simp, ?_, by simp,
      (fun h i hp => nomatch hp), (fun i hp => nomatch hp), fun hp => nomatch hp⟩
    · simp only [g4]; simp
    · rw [g6, h1]; simp [Phase.pending, eventsOf]
    · intro t x hx hxs
      exact absurd (hall x (List.mem_of_getElem? hx)) hxs
  | @close i h1 h2 =>
    have hall : ∀ t ∈ s.tasks, t.state = .finished := by
      intro x hx
      obtain ⟨t, ht⟩ := List.getElem?_of_mem hx
      by_cases hxs : x.state = .finished
      · exact hxs
      · obtain ⟨j, hj⟩ := List.getElem?_of_mem (hr t x ht hxs)
        have := (List.getElem?_eq_some_iff.1 hj).1
        rw [List.getElem?_eq_none_iff] at h2
        exact hw _ _ h1 j (by omega) t x hj ht
    refine ⟨⟨a, l, old, cur, log, g1, g2, g3, g4, g5, ?_⟩, List.nodup_nil, by simp, ?_, by simp, (fun h i hp => nomatch hp), (fun i hp => nomatch hp), fun _ => ⟨hl.1 _ h1, rfl⟩⟩
    · rw [g6, h1]; rfl
    · intro t x hx hxs
      exact absurd (hall x (List.mem_of_getElem? hx)) hxs
  | @print t x h1 h2 =>
    obtain ⟨cur', c1, c2, c3, -⟩ := hset t x { x with state := .printed } h1 rfl (by rw [h2]; decide)
    refine ⟨⟨a, l, old, cur', log ++ [.event x.event], g1, c1, g3, ?_, ?_, ?_⟩, hn, ?_, ?_, hf, ?_, hl⟩
    · simp only [g4, List.append_assoc]
    · exact (List.Perm.append_right _ g5).trans (c3 h2 (by simp))
    · rw [c2]; exact g6
    · intro t ht
      simp only [List.length_set]
      exact hk t ht
    · intro u y hu hy
      simp only [List.getElem?_set] at hu
      split at hu
      · next htu => subst htu; exact hr t x h1 (by rw [h2]; decide)
      · exact hr u y hu hy
    · intro h i hp j hj u y hu hy
      simp only [List.getElem?_set] at hy
      split at hy
      · next htu =>
        subst htu
        have := hw h i hp j hj _ x hu h1
        rw [h2] at this; cases this
      · exact hw h i hp j hj u y hu hy
  | @finish t x h1 h2 =>
    obtain ⟨cur', c1, c2, -, c4⟩ := hset t x { x with state := .finished } h1 rfl (by rw [h2]; decide)
    refine ⟨⟨a, l, old, cur', log, g1, c1, g3, g4, ?_, ?_⟩, hn, ?_, ?_, hf, ?_, hl⟩
    · rw [c4 (by rw [h2]; decide) (by simp)]; exact g5
    · rw [c2]; exact g6
    · intro t ht
      simp only [List.length_set]
      exact hk t ht
    · intro u y hu hy
      simp only [List.getElem?_set] at hu
      split at hu
      · next htu => subst htu; exact hr t x h1 (by rw [h2]; decide)
      · exact hr u y hu hy
    · intro h i hp j hj u y hu hy
      simp only [List.getElem?_set] at hy
      split at hy
      · next htu =>
        split at hy
        · cases hy; rfl
        · cases hy
      · exact hw h i hp j hj u y hu hy

theorem steps_inv (maxNTasks : Nat) (ds : List Delivery) (s : Sched) (hs : Steps maxNTasks { left := ds } s) : SchedInv maxNTasks ds s := by
  generalize hi : ({ left := ds } : Sched) = s0 at hs
  induction hs with
  | refl => rw [← hi]; exact start_inv maxNTasks ds
  | tail _ h2 ih => exact step_inv maxNTasks ds _ _ ih h2

/-- **C90**, safety, for all numbers of tasks, all events and run headers, and all orders in which threads run. At any time no more tasks than allowed have been started and not returned. When the program has ended,
all tasks have returned, and each event and run header has been processed exactly once: a run header after all events before it, and before all events after it. -/
theorem C90_order (maxNTasks : Nat) (ds : List Delivery) (s : Sched) (hs : Steps maxNTasks { left := ds } s) :
    (s.tasks.filter fun t => t.state ≠ .finished).length ≤ maxNTasks ∧
    (s.phase = .ended → InParallel ds s.printed ∧ ∀ t ∈ s.tasks, t.state = .finished) := by
  have h := steps_inv maxNTasks ds s hs
  constructor
  · -- the numbers of the tasks that run are futures
    have key : ∀ (ts : List Task) (n : Nat), (ts.filter fun t => t.state ≠ .finished).length =
        ((List.range' n ts.length).filter fun i => ((ts[i - n]?).map fun t => decide (t.state ≠ .finished)).getD false).length := by
      intro ts
      induction ts with
      | nil => intro n; rfl
      | cons t ts ih =>
        intro n
        rw [List.length_cons, List.range'_succ, List.filter_cons, List.filter_cons]
        have e : ((List.range' (n + 1) ts.length).filter fun i => (((t :: ts)[i - n]?).map fun t => decide (t.state ≠ .finished)).getD false) =
            (List.range' (n + 1) ts.length).filter fun i => ((ts[i - (n + 1)]?).map fun t => decide (t.state ≠ .finished)).getD false := by
          refine List.filter_congr fun i hi => ?_
          have := (List.mem_range'_1.1 hi).1
          rw [show i - n = (i - (n + 1)) + 1 by omega, List.getElem?_cons_succ]
        rw [e, Nat.sub_self, List.getElem?_cons_zero]
        simp only [Option.map_some, Option.getD_some]
        by_cases ht : t.state = .finished
        · rw [if_neg (by simp [ht]), if_neg (by simp [ht]), ih (n + 1)]
        · rw [if_pos (by simp [ht]), if_pos (by simp [ht]), List.length_cons, List.length_cons, ih (n + 1)]
    rw [key s.tasks 0]
    refine Nat.le_trans (List.Nodup.length_le_of_subset (List.Nodup.filter _ List.nodup_range') fun t ht => ?_) h.few
    obtain ⟨h1, h2⟩ := List.mem_filter.1 ht
    rw [Nat.sub_zero] at h2
    cases hx : s.tasks[t]? with
    | none => rw [hx] at h2; simp at h2
    | some x =>
      rw [hx] at h2
      exact h.running t x hx (by simpa using h2)
  · intro he
    obtain ⟨a, l, old, cur, log, g1, g2, g3, g4, g5, g6⟩ := h.log
    obtain ⟨hl, hfu⟩ := h.last.2 he
    have hall : ∀ t ∈ s.tasks, t.state = .finished := by
      intro x hx
      obtain ⟨t, ht⟩ := List.getElem?_of_mem hx
      by_cases hxs : x.state = .finished
      · exact hxs
      · have := h.running t x ht hxs
        rw [hfu] at this
        cases this
    refine ⟨?_, hall⟩
    rw [g4, g6, he, hl]
    simp only [Phase.pending, List.append_nil]
    refine soFar_append g1 (InParallel.last (onlyEvents_of cur) ?_)
    rw [← printedOf_all cur fun t ht => hall t (by rw [g2]; simp [ht])]
    exact g5

theorem Steps.trans' {maxNTasks : Nat} {a b c : Sched} (h1 : Steps maxNTasks a b) (h2 : Steps maxNTasks b c) : Steps maxNTasks a c := by
  induction h2 with
  | refl => exact h1
  | tail _ h ih => exact .tail ih h

theorem one_step {maxNTasks : Nat} {a b : Sched} (h : Step maxNTasks a b) : Steps maxNTasks a b := .tail (.refl _) h

theorem inv_of_steps {maxNTasks : Nat} {ds : List Delivery} {a b : Sched} (hi : SchedInv maxNTasks ds a) (h : Steps maxNTasks a b) : SchedInv maxNTasks ds b := by
  induction h with
  | refl => exact hi
  | tail _ h ih => exact step_inv _ _ _ _ ih h

/-- All tasks can return. -/
theorem tasks_finish (maxNTasks : Nat) (s : Sched) : ∃ ts out, Steps maxNTasks s { s with tasks := ts, printed := out } ∧ ts.length = s.tasks.length ∧ ∀ t ∈ ts, t.state = .finished := by
  have key : ∀ n, n ≤ s.tasks.length → ∃ ts out, Steps maxNTasks s { s with tasks := ts, printed := out } ∧ ts.length = s.tasks.length ∧
      ∀ (i : Nat) x, i < n → ts[i]? = some x → x.state = .finished := by
    intro n
    induction n with
    | zero => intro _; exact ⟨s.tasks, s.printed, .refl _, rfl, fun i x hi => absurd hi (by omega)⟩
    | succ n ih =>
      intro hn
      obtain ⟨ts, out, h1, h2, h3⟩ := ih (by omega)
      have hlt : n < ts.length := by omega
      have hx : ts[n]? = some ts[n] := List.getElem?_eq_getElem hlt
      have fin : ∀ (us : List Task) (out : List Delivery) (x : Task), Steps maxNTasks s { s with tasks := us, printed := out } → us.length = s.tasks.length →
          us[n]? = some x → x.state ≠ .started → (∀ (i : Nat) y, i < n → us[i]? = some y → y.state = .finished) → ∃ ts out, Steps maxNTasks s { s with tasks := ts, printed := out } ∧
            ts.length = s.tasks.length ∧ ∀ (i : Nat) x, i < n + 1 → ts[i]? = some x → x.state = .finished := by
        intro us out x g1 g2 g3 g4 g5
        cases hst : x.state with
        | started => exact absurd hst g4
        | finished =>
          refine ⟨us, out, g1, g2, fun i y hi hy => ?_⟩
          by_cases hin : i = n
          · subst hin; rw [g3] at hy; cases hy; exact hst
          · exact g5 i y (by omega) hy
        | printed =>
          refine ⟨us.set n { x with state := .finished }, out, .tail g1 (.finish g3 hst), by simpa using g2, fun i y hi hy => ?_⟩
          rw [List.getElem?_set] at hy
          split at hy
          · split at hy
            · cases hy; rfl
            · cases hy
          · exact g5 i y (by omega) hy
      cases hst : ts[n].state with
      | started =>
        refine fin (ts.set n { ts[n] with state := .printed }) (out ++ [.event ts[n].event]) { ts[n] with state := .printed } (.tail h1 (.print hx hst)) (by simpa using h2) ?_ (by simp) ?_
        · simp [hlt]
        · intro i y hi hy
          rw [List.getElem?_set_ne (by omega)] at hy
          exact h3 i y hi hy
      | printed => exact fin ts out _ h1 h2 hx (by rw [hst]; decide) h3
      | finished => exact fin ts out _ h1 h2 hx (by rw [hst]; decide) h3
  obtain ⟨ts, out, h1, h2, h3⟩ := key s.tasks.length (Nat.le_refl _)
  refine ⟨ts, out, h1, h2, fun t ht => ?_⟩
  obtain ⟨i, hi⟩ := List.getElem?_of_mem ht
  exact h3 i t (by rw [← h2]; exact (List.getElem?_eq_some_iff.1 hi).1) hi

/-- When all tasks have returned, the main thread gets through `waitForAll`. -/
theorem waits (maxNTasks : Nat) (h : Option RunHeader) (s : Sched) (hk : ∀ t ∈ s.futures, t < s.tasks.length) (hall : ∀ t ∈ s.tasks, t.state = .finished) (i : Nat) (hp : s.phase = .waiting h i) :
    ∃ j, Steps maxNTasks s { s with phase := .waiting h j } ∧ s.futures[j]? = none := by
  induction hn : s.futures.length - i generalizing i s with
  | zero => exact ⟨i, by rw [← hp]; exact .refl _, List.getElem?_eq_none (by omega)⟩
  | succ n ih =>
    have hi : i < s.futures.length := by omega
    have ht := hk _ (List.getElem_mem hi)
    have hg : Step maxNTasks s { s with phase := .waiting h (i + 1) } :=
      .get hp (List.getElem?_eq_getElem hi) (List.getElem?_eq_getElem ht) (hall _ (List.getElem_mem ht))
    obtain ⟨j, h1, h2⟩ := ih { s with phase := .waiting h (i + 1) } hk hall (i + 1) rfl (by simp only; omega)
    exact ⟨j, Steps.trans' (one_step hg) h1, h2⟩

/-- When all tasks have returned, the main thread removes all futures from `i` on. -/
theorem polls (maxNTasks : Nat) (e : EventData) (i : Nat) (s : Sched) (hk : ∀ t ∈ s.futures, t < s.tasks.length) (hall : ∀ t ∈ s.tasks, t.state = .finished) (hp : s.phase = .polling e i) :
    ∃ fs, Steps maxNTasks s { s with phase := .starting e, futures := fs } ∧ (∀ t ∈ fs, t < s.tasks.length) ∧ fs.length ≤ i := by
  induction hn : s.futures.length - i generalizing s with
  | zero => exact ⟨s.futures, one_step (.polled hp (List.getElem?_eq_none (by omega))), hk, by omega⟩
  | succ n ih =>
    have hi : i < s.futures.length := by omega
    have ht := hk _ (List.getElem_mem hi)
    have hg : Step maxNTasks s { s with futures := s.futures.eraseIdx i } :=
      .ready hp (List.getElem?_eq_getElem hi) (List.getElem?_eq_getElem ht) (hall _ (List.getElem_mem ht))
    obtain ⟨fs, h1, h2⟩ := ih { s with futures := s.futures.eraseIdx i } (fun t ht => hk t (List.mem_of_mem_eraseIdx ht)) hall hp (by
      simp only [List.length_eraseIdx, if_pos hi]; omega)
    exact ⟨fs, Steps.trans' (one_step hg) h1, h2⟩

/-- An event is given to a task in the end. -/
theorem starts (maxNTasks : Nat) (hm : 0 < maxNTasks) (e : EventData) (s : Sched) (hk : ∀ t ∈ s.futures, t < s.tasks.length) (hall : ∀ t ∈ s.tasks, t.state = .finished)
    (hp : s.phase = .starting e) : ∃ s', Steps maxNTasks s s' ∧ s'.phase = .reading ∧ s'.left = s.left := by
  by_cases hl : s.futures.length < maxNTasks
  · exact ⟨_, one_step (.start hp hl), rfl, rfl⟩
  · obtain ⟨fs, h1, h2, h3⟩ := polls maxNTasks e 0 { s with phase := .polling e 0 } hk hall rfl
    exact ⟨_, .tail (Steps.trans' (one_step (.busy hp hl)) h1) (.start rfl (by simp only; omega)), rfl, rfl⟩

/-- The main thread comes back to its loop, or to the end. -/
theorem returns (maxNTasks : Nat) (hm : 0 < maxNTasks) (ds : List Delivery) (s : Sched) (h : SchedInv maxNTasks ds s) :
    ∃ s', Steps maxNTasks s s' ∧ (s'.phase = .reading ∧ s'.left = s.left ∨ s'.phase = .ended) := by
  obtain ⟨ts, out, h1, h2, h3⟩ := tasks_finish maxNTasks s
  have hk : ∀ t ∈ s.futures, t < ts.length := by rw [h2]; exact h.known
  cases hp : s.phase with
  | reading => exact ⟨s, .refl _, .inl ⟨hp, rfl⟩⟩
  | ended => exact ⟨s, .refl _, .inr hp⟩
  | starting e =>
    obtain ⟨s', g1, g2, g3⟩ := starts maxNTasks hm e { s with tasks := ts, printed := out } hk h3 hp
    exact ⟨s', Steps.trans' h1 g1, .inl ⟨g2, g3⟩⟩
  | polling e i =>
    obtain ⟨fs, f1, f2, -⟩ := polls maxNTasks e i { s with tasks := ts, printed := out } hk h3 hp
    obtain ⟨s', g1, g2, g3⟩ := starts maxNTasks hm e { s with tasks := ts, printed := out, phase := .starting e, futures := fs } f2 h3 rfl
    exact ⟨s', Steps.trans' h1 (Steps.trans' f1 g1), .inl ⟨g2, g3⟩⟩
  | waiting o i =>
    obtain ⟨j, f1, f2⟩ := waits maxNTasks o { s with tasks := ts, printed := out } hk h3 i hp
    cases o with
    | none => exact ⟨_, .tail (Steps.trans' h1 f1) (.close rfl f2), .inr rfl⟩
    | some hd => exact ⟨_, .tail (Steps.trans' h1 f1) (.waited rfl f2), .inl ⟨rfl, rfl⟩⟩

/-- **C90**, no deadlock: if at least one task is allowed, the program can reach its end from every state that it reaches. -/
theorem C90_can_finish (maxNTasks : Nat) (hm : 0 < maxNTasks) (ds : List Delivery) (s : Sched) (hs : Steps maxNTasks { left := ds } s) :
    ∃ s', Steps maxNTasks s s' ∧ s'.phase = .ended := by
  have key : ∀ (n : Nat) (s : Sched), SchedInv maxNTasks ds s → s.left.length = n → ∃ s', Steps maxNTasks s s' ∧ s'.phase = .ended := by
    intro n
    induction n with
    | zero =>
      intro s h hn
      obtain ⟨s1, h1, h2⟩ := returns maxNTasks hm ds s h
      rcases h2 with ⟨h2, h3⟩ | h2
      · have st : Step maxNTasks s1 { s1 with phase := .waiting none 0 } := .readEnd h2 (by rw [h3]; exact List.length_eq_zero_iff.1 hn)
        obtain ⟨s3, g1, g2⟩ := returns maxNTasks hm ds _ (step_inv _ _ _ _ (inv_of_steps h h1) st)
        rcases g2 with ⟨g2, -⟩ | g2
        · obtain ⟨ts, out, t1, t2, t3⟩ := tasks_finish maxNTasks { s1 with phase := .waiting none 0 }
          obtain ⟨j, f1, f2⟩ := waits maxNTasks none { s1 with tasks := ts, printed := out, phase := .waiting none 0 } (by
            simp only
            rw [t2]
            exact (inv_of_steps h h1).known) t3 0 rfl
          exact ⟨_, .tail (Steps.trans' h1 (Steps.trans' (one_step st) (Steps.trans' t1 f1))) (.close rfl f2), rfl⟩
        · exact ⟨s3, Steps.trans' h1 (Steps.trans' (one_step st) g1), g2⟩
      · exact ⟨s1, h1, h2⟩
    | succ n ih =>
      intro s h hn
      obtain ⟨s1, h1, h2⟩ := returns maxNTasks hm ds s h
      rcases h2 with ⟨h2, h3⟩ | h2
      · cases hl : s.left with
        | nil => rw [hl] at hn; cases hn
        | cons d rest =>
          have hlen : rest.length = n := by rw [hl, List.length_cons] at hn; omega
          have : ∃ s2, Step maxNTasks s1 s2 ∧ s2.left = rest := by
            cases d with
            | event e => exact ⟨_, .readEvent h2 (by rw [h3, hl]), rfl⟩
            | run r => exact ⟨_, .readRun h2 (by rw [h3, hl]), rfl⟩
          obtain ⟨s2, g1, g2⟩ := this
          obtain ⟨s3, f1, f2⟩ := ih s2 (step_inv _ _ _ _ (inv_of_steps h h1) g1) (by rw [g2]; exact hlen)
          exact ⟨s3, Steps.trans' (.tail h1 g1) f1, f2⟩
      · exact ⟨s1, h1, h2⟩
  exact key _ s (steps_inv maxNTasks ds s hs) rfl

/-- What is left to be done, apart from looking for tasks that have returned. -/
def toDo (maxNTasks : Nat) (s : Sched) : Nat :=
  s.left.length * (2 * maxNTasks + 6) + (match s.phase with
    | .reading => maxNTasks + 3
    | .starting _ => maxNTasks + 6
    | .polling _ _ => maxNTasks + 6
    | .waiting (some _) i => 2 * maxNTasks + 4 - i
    | .waiting none i => maxNTasks + 2 - i
    | .ended => 0) + (s.tasks.map fun t => match t.state with
    | .started => 2
    | .printed => 1
    | .finished => 0).sum

/-- The same for looking for tasks when all have returned. -/
def toPoll (s : Sched) : Nat := match s.phase with
  | .starting _ => if s.futures.length = 0 then 0 else 3 * s.futures.length + 1
  | .polling _ 0 => if s.futures.length = 0 then 1 else 3 * s.futures.length
  | .polling _ (_+1) => 3 * s.futures.length + 2
  | _ => 0

theorem sum_set (f : Task → Nat) (ts : List Task) (i : Nat) (x y : Task) (h : ts[i]? = some x) : (ts.set i y |>.map f).sum + f x = (ts.map f).sum + f y := by
  induction ts generalizing i with
  | nil => cases h
  | cons t ts ih =>
    cases i with
    | zero => cases h; simp only [List.set_cons_zero, List.map_cons, List.sum_cons]; omega
    | succ i =>
      have := ih i h
      simp only [List.set_cons_succ, List.map_cons, List.sum_cons]
      omega

/-- A step that brings the program nearer to its end, or one of looking for tasks that have returned. -/
theorem step_toDo (maxNTasks : Nat) (ds : List Delivery) (s s' : Sched) (h : SchedInv maxNTasks ds s) (hi : ∀ o i, s.phase = .waiting o i → i ≤ s.futures.length) (hs : Step maxNTasks s s') :
    toDo maxNTasks s' < toDo maxNTasks s ∨ (toDo maxNTasks s' = toDo maxNTasks s ∧ s'.tasks = s.tasks ∧
      ((∀ t ∈ s.tasks, t.state = .finished) → 0 < maxNTasks → toPoll s' < toPoll s)) := by
  have hf := h.few
  cases hs with
  | readEvent h1 h2 => left; unfold toDo; simp only [h1, h2, List.length_cons, Nat.add_mul]; omega
  | readRun h1 h2 => left; unfold toDo; simp only [h1, h2, List.length_cons, Nat.add_mul]; omega
  | readEnd h1 h2 => left; unfold toDo; simp only [h1]; omega
  | start h1 h2 => left; unfold toDo; simp only [h1, List.map_append, List.sum_append, List.map_cons, List.map_nil, List.sum_cons, List.sum_nil]; omega
  | busy h1 h2 =>
    right
    refine ⟨by unfold toDo; simp only [h1], rfl, fun _ hm => ?_⟩
    unfold toPoll
    simp only [h1]
    rw [if_neg (by omega), if_neg (by omega)]
    omega
  | @ready e i t x h1 h2 h3 h4 =>
    right
    refine ⟨by unfold toDo; simp only [h1], rfl, fun _ hm => ?_⟩
    have hlt := (List.getElem?_eq_some_iff.1 h2).1
    have hl : (s.futures.eraseIdx i).length = s.futures.length - 1 := by simp [List.length_eraseIdx, hlt]
    unfold toPoll
    cases i with
    | zero =>
      simp only [h1, hl]
      split <;> split <;> omega
    | succ i => simp only [h1, hl]; omega
  | @notReady e i t x h1 h2 h3 h4 =>
    right
    refine ⟨by unfold toDo; simp only [h1], rfl, fun ha hm => absurd (ha x (List.mem_of_getElem? h3)) h4⟩
  | @polled e i h1 h2 =>
    right
    refine ⟨by unfold toDo; simp only [h1], rfl, fun _ hm => ?_⟩
    rw [List.getElem?_eq_none_iff] at h2
    unfold toPoll
    cases i with
    | zero =>
      simp only [h1]
      rw [if_pos (by omega), if_pos (by omega)]
      omega
    | succ i =>
      simp only [h1]
      split <;> omega
  | @get o i t x h1 h2 h3 h4 =>
    left
    have hlt := (List.getElem?_eq_some_iff.1 h2).1
    unfold toDo
    cases o <;> simp only [h1] <;> omega
  | @waited o i h1 h2 =>
    left
    have := hi _ _ h1
    unfold toDo
    simp only [h1]
    omega
  | @close i h1 h2 =>
    left
    have := hi _ _ h1
    unfold toDo
    simp only [h1]
    omega
  | @print t x h1 h2 =>
    left
    have := sum_set (fun t => match t.state with
      | .started => 2
      | .printed => 1
      | .finished => 0) s.tasks t x { x with state := .printed } h1
    simp only [h2] at this
    unfold toDo
    simp only
    omega
  | @finish t x h1 h2 =>
    left
    have := sum_set (fun t => match t.state with
      | .started => 2
      | .printed => 1
      | .finished => 0) s.tasks t x { x with state := .finished } h1
    simp only [h2] at this
    unfold toDo
    simp only
    omega

theorem step_waiting (maxNTasks : Nat) (s s' : Sched) (hi : ∀ o i, s.phase = .waiting o i → i ≤ s.futures.length) (hs : Step maxNTasks s s') :
    ∀ o i, s'.phase = .waiting o i → i ≤ s'.futures.length := by
  intro o i hp
  cases hs with
  | readEvent h1 h2 => cases hp
  | readRun h1 h2 => cases hp; exact Nat.zero_le _
  | readEnd h1 h2 => cases hp; exact Nat.zero_le _
  | start h1 h2 => cases hp
  | busy h1 h2 => cases hp
  | ready h1 h2 h3 h4 => rw [h1] at hp; cases hp
  | notReady h1 h2 h3 h4 => cases hp
  | polled h1 h2 => cases hp
  | get h1 h2 h3 h4 => cases hp; exact (List.getElem?_eq_some_iff.1 h2).1
  | waited h1 h2 => cases hp
  | close h1 h2 => cases hp
  | print h1 h2 => exact hi o i hp
  | finish h1 h2 => exact hi o i hp

/-- A number that never grows stays the same from some time on. -/
theorem settles (f : Nat → Nat) (h : ∀ n, f (n + 1) ≤ f n) : ∃ k, ∀ n, k ≤ n → f (n + 1) = f n := by
  have mono : ∀ a d, f (a + d) ≤ f a := by
    intro a d
    induction d with
    | zero => exact Nat.le_refl _
    | succ d ih => exact Nat.le_trans (h (a + d)) ih
  have key : ∀ (m a : Nat), f a ≤ m → ∃ k, ∀ n, k ≤ n → f (n + 1) = f n := by
    intro m
    induction m with
    | zero =>
      intro a ha
      refine ⟨a, fun n hn => ?_⟩
      have h1 := mono a (n - a)
      have h2 := h n
      rw [show a + (n - a) = n by omega] at h1
      omega
    | succ m ih =>
      intro a ha
      by_cases hx : ∃ b, a ≤ b ∧ f b ≤ m
      · obtain ⟨b, -, hb⟩ := hx
        exact ih b hb
      · refine ⟨a, fun n hn => ?_⟩
        have h1 := mono a (n - a)
        rw [show a + (n - a) = n by omega] at h1
        have h2 : ¬ f n ≤ m := fun hm => hx ⟨n, hn, hm⟩
        have h3 : ¬ f (n + 1) ≤ m := fun hm => hx ⟨n + 1, by omega, hm⟩
        have := h n
        omega
  exact key (f 0) 0 (Nat.le_refl _)

/-- **C90**, liveness, for all orders in which threads run: if at least one task is allowed and the program runs for ever, then there is a task that never returns. -/
theorem C90_ends (maxNTasks : Nat) (hm : 0 < maxNTasks) (ds : List Delivery) (f : Nat → Sched) (h0 : f 0 = { left := ds }) (hf : ∀ n, Step maxNTasks (f n) (f (n + 1))) :
    ∃ (t : Nat) (k : Nat), ∀ n, k ≤ n → ∃ x, (f n).tasks[t]? = some x ∧ x.state ≠ .finished := by
  have hinv : ∀ n, SchedInv maxNTasks ds (f n) ∧ ∀ o i, (f n).phase = .waiting o i → i ≤ (f n).futures.length := by
    intro n
    induction n with
    | zero => rw [h0]; exact ⟨start_inv _ _, fun o i hp => nomatch hp⟩
    | succ n ih => exact ⟨step_inv _ _ _ _ ih.1 (hf n), step_waiting _ _ _ ih.2 (hf n)⟩
  have hstep := fun n => step_toDo maxNTasks ds _ _ (hinv n).1 (hinv n).2 (hf n)
  obtain ⟨k, hk⟩ := settles (fun n => toDo maxNTasks (f n)) fun n => by
    rcases hstep n with h | h
    · exact Nat.le_of_lt h
    · exact Nat.le_of_eq h.1
  have hstep' : ∀ n, k ≤ n → (f (n + 1)).tasks = (f n).tasks ∧ ((∀ t ∈ (f n).tasks, t.state = .finished) → toPoll (f (n + 1)) < toPoll (f n)) := by
    intro n hn
    rcases hstep n with h | h
    · have := hk n hn; omega
    · exact ⟨h.2.1, fun ha => h.2.2 ha hm⟩
  have htasks : ∀ d, (f (k + d)).tasks = (f k).tasks := by
    intro d
    induction d with
    | zero => rfl
    | succ d ih => rw [← ih]; exact (hstep' (k + d) (by omega)).1
  by_cases hall : ∀ t ∈ (f k).tasks, t.state = .finished
  · have hdec : ∀ d, toPoll (f (k + d)) + d ≤ toPoll (f k) := by
      intro d
      induction d with
      | zero => exact Nat.le_refl _
      | succ d ih =>
        have := (hstep' (k + d) (by omega)).2 (by rw [htasks d]; exact hall)
        rw [show k + (d + 1) = k + d + 1 by omega]
        omega
    have := hdec (toPoll (f k) + 1)
    omega
  · obtain ⟨x, hx⟩ := Classical.not_forall.1 hall
    obtain ⟨hx, hxs⟩ := Classical.not_imp.1 hx
    obtain ⟨t, ht⟩ := List.getElem?_of_mem hx
    refine ⟨t, k, fun n hn => ⟨x, ?_, hxs⟩⟩
    have := htasks (n - k)
    rw [show k + (n - k) = n by omega] at this
    rw [this]
    exact ht

/-- **C90** fails if no task is allowed, which is so if the number of threads of the machine is not known (`hardware_concurrency` returns 0) and LCIO_MAX_THREADS is not set: with an event in the files the program never ends. -/
theorem C90_fails_no_tasks (ds : List Delivery) (e : EventData) (he : .event e ∈ ds) (s : Sched) (hs : Steps (maxThreads 0 none).toNat { left := ds } s) : s.phase ≠ .ended ∧ s.tasks = [] := by
  have h0 : (maxThreads 0 none).toNat = 0 := rfl
  rw [h0] at hs
  have ht : s.tasks = [] := by
    generalize hi : ({ left := ds } : Sched) = s0 at hs
    induction hs with
    | refl => rw [← hi]
    | tail _ h2 ih =>
      cases h2 with
      | start h1 h2 => omega
      | print h1 h2 => rw [ih] at h1; cases h1
      | finish h1 h2 => rw [ih] at h1; cases h1
      | _ => exact ih
  refine ⟨fun hp => ?_, ht⟩
  have h := steps_inv 0 ds s hs
  have hpar := ((C90_order 0 ds s hs).2 hp).1
  obtain ⟨a, l, old, cur, log, g1, g2, g3, g4, g5, g6⟩ := h.log
  obtain ⟨hl, -⟩ := h.last.2 hp
  rw [ht] at g2
  obtain ⟨rfl, rfl⟩ : old = [] ∧ cur = [] := List.append_eq_nil_iff.1 g2.symm
  -- nothing but run headers has been printed
  have hpr : ∀ d ∈ s.printed, ∃ h, d = .run h := by
    generalize hi : ({ left := ds } : Sched) = s0 at hs
    clear hpar h g6 hl g4 g2 hp g1 g3 g5
    induction hs with
    | refl => rw [← hi]; simp
    | @tail b c h1 h2 ih =>
      have htb : b.tasks = [] := by
        cases h2 with
        | start h1 h2 => omega
        | print h1 h2 => have : b.tasks = [] := by simpa using ht
                         exact this
        | finish h1 h2 => have : b.tasks = [] := by simpa using ht
                          exact this
        | _ => exact ht
      cases h2 with
      | start h1 h2 => omega
      | print h1 h2 => rw [htb] at h1; cases h1
      | finish h1 h2 => rw [htb] at h1; cases h1
      | waited h1 h2 =>
        intro d hd
        simp only [List.mem_append, List.mem_cons, List.not_mem_nil, or_false] at hd
        rcases hd with hd | hd
        · exact ih htb d hd
        · exact ⟨_, hd⟩
      | _ => exact ih htb
  have hmem : ∀ {ds log : List Delivery}, InParallel ds log → ∀ d ∈ ds, d ∈ log := by
    intro ds log h
    induction h with
    | last h1 h2 => intro d hd; exact h2.mem_iff.2 hd
    | run h1 h2 _ ih =>
      intro d hd
      simp only [List.mem_append, List.mem_cons] at hd ⊢
      rcases hd with hd | hd | hd
      · exact .inl (h2.mem_iff.2 hd)
      · exact .inr (.inl hd)
      · exact .inr (.inr (ih d hd))
  obtain ⟨hd, e2⟩ := hpr _ (hmem hpar _ he)
  cases e2

/-- **C90** fails if LCIO_MAX_THREADS is negative: the test for this cannot be met, since the number is unsigned, and up to 4294967295 tasks run at the same time. -/
theorem C90_fails_negative (hardware : W32) (es : List EventData) (hn : es.length < 2 ^ 32) :
    ∃ s, Steps (maxThreads hardware (some (-1))).toNat { left := es.map .event } s ∧ (s.tasks.filter fun t => t.state ≠ .finished).length = es.length := by
  have hmax : (maxThreads hardware (some (-1))).toNat = 4294967295 := rfl
  rw [hmax]
  have key : ∀ (es : List EventData) (s : Sched), s.phase = .reading → s.left = es.map .event → s.futures.length + es.length ≤ 4294967295 →
      ∃ s', Steps 4294967295 s s' ∧ s'.tasks = s.tasks ++ es.map fun e => ⟨e, .started⟩ := by
    intro es
    induction es with
    | nil => intro s _ _ _; exact ⟨s, .refl _, by simp⟩
    | cons e es ih =>
      intro s h1 h2 h3
      rw [List.length_cons] at h3
      have s1 : Step 4294967295 s _ := .readEvent h1 h2
      have s2 := Step.start (maxNTasks := 4294967295) (s := { s with left := es.map .event, phase := .starting e }) (e := e) rfl (by simp only; omega)
      obtain ⟨s', g1, g2⟩ := ih { s with left := es.map .event, phase := .reading, futures := s.futures ++ [s.tasks.length], tasks := s.tasks ++ [⟨e, .started⟩] } rfl rfl (by
        simp only [List.length_append, List.length_cons, List.length_nil]; omega)
      exact ⟨s', Steps.trans' (.tail (one_step s1) s2) g1, by rw [g2]; simp⟩
  obtain ⟨s, h1, h2⟩ := key es { left := es.map .event } rfl rfl (by simp only [List.length_nil]; omega)
  refine ⟨s, h1, ?_⟩
  rw [h2, List.nil_append, List.filter_eq_self.2, List.length_map]
  intro t ht
  obtain ⟨e, -, rfl⟩ := List.mem_map.1 ht
  simp

/-- What the loop of the program reads. -/
theorem recordLoop_reads (cfg : RConfig) (its : List (Str × Put)) (ds : List Delivery) (hds : All2 (fun x d => delivery cfg x.1 x.2 = some d) its ds) (r : Reader) (name : Str) (ps : List Put)
    (rest : List (Str × List Put)) (h : At cfg r name ps rest) (hits : following name ps rest = its) (fuel : Nat) (hf : its.length < fuel) :
    recordLoop cfg fuel r = (ds, .ok ()) := by
  induction its generalizing ds r name ps rest fuel with
  | nil =>
    obtain rfl : ds = [] := List.length_eq_zero_iff.1 (by rw [← hds.1]; rfl)
    cases fuel with
    | zero => cases hf
    | succ fuel =>
      obtain ⟨-, a2⟩ := stream_loop cfg 1 (r.files.length + 1) r name ps rest h h.rest_length (by rw [hits]; simp) (by rw [hits]; simp) 1 (by omega) (by decide)
      obtain ⟨b1, b2⟩ := a2 (by rw [hits]; simp)
      rw [hits] at b1
      unfold recordLoop Reader.readStream
      rcases hx : Reader.readStreamLoop cfg 1 (r.files.length + 1) 1 r with ⟨log, res, r'⟩
      rw [show ((1 : Nat) : Int) = 1 from rfl, hx] at b1 b2
      simp only at b1 b2
      rw [b1, b2]
      rfl
  | cons x its ih =>
    cases ds with
    | nil => cases hds.1
    | cons d ds =>
      obtain ⟨b, rest2, e1, e2, e3⟩ := hds.cons_inv
      simp only [List.cons.injEq] at e1
      obtain ⟨rfl, rfl⟩ := e1
      cases fuel with
      | zero => cases hf
      | succ fuel =>
        have hall : ∀ y ∈ x :: its, delivery cfg y.1 y.2 ≠ none := by
          intro y hy
          obtain ⟨i, hi⟩ := List.getElem?_of_mem hy
          have hlt : i < (d :: ds).length := by rw [← hds.1]; exact (List.getElem?_eq_some_iff.1 hi).1
          rw [hds.2 i y _ hi (List.getElem?_eq_getElem hlt)]
          simp
        obtain ⟨a1, -⟩ := stream_loop cfg 1 (r.files.length + 1) r name ps rest h h.rest_length (by rw [hits]; exact hall) (fun y _ => .inl (Nat.le_refl 1)) 1 (by omega) (by decide)
        obtain ⟨r', name', ps', rest', b1, b2, b3⟩ := a1 (by rw [hits]; simp)
        rw [hits] at b1 b3
        simp only [List.drop_succ_cons, List.drop_zero, List.take_succ_cons, List.take_zero] at b1 b3
        have hh := handed_single cfg [x] [d] (Lcio.All2.cons e2 (Lcio.All2.nil _))
        unfold recordLoop Reader.readStream
        rw [show ((1 : Nat) : Int) = 1 from rfl] at b1
        rw [b1]
        simp only
        rw [hh, ih ds e3 r' name' ps' rest' b2 b3 fuel (by simp at hf; omega)]
        rfl

/-- **C90** with files: what the program gives to its tasks is all that is in the files, in their order, as other readers get it. The first file is to be one that can be opened for direct access, as in C28 and C29.

Missing: files that were not made by LCIO; things that cannot be loaded, for which the program ends with an exception. -/
theorem C90_files_partial (cfg : RConfig) (hcodec : Lossless cfg.codec) (name : Str) (bytes : List Byte) (ss : List Session) (files : List (Str × List Byte)) (contents : List (Str × List Session))
    (h : FilesHold cfg.codec cfg.std ((name, bytes) :: files) ((name, ss) :: contents)) (hs : SessionsOk cfg.codec cfg.std ss) (hd : DirectOk ss) (hlen : bytes.length < 2 ^ 31)
    (hl : ∀ c ∈ (name, ss) :: contents, Loadable cfg (allPuts c.2)) :
    ∃ r r' ds, Reader.openFiles cfg true ((name, bytes) :: files) = (.ok (), r) ∧ Reader.openFiles cfg false ((name, bytes) :: files) = (.ok (), r') ∧
      (∀ gs, gets cfg gs r' = .ok (inTurn gs ds)) ∧ (∀ fuel, ds.length < fuel → recordLoop cfg fuel r = (ds, .ok ())) ∧
      ∀ maxNTasks s, Steps maxNTasks { left := ds } s → s.phase = .ended → InParallel ds s.printed := by
  obtain ⟨r0, c, cs, a1, a2, a3, a4, a5⟩ := open_at cfg hcodec _ _ h (by simp) hl
  simp only [List.cons.injEq] at a2
  obtain ⟨rfl, rfl⟩ := a2
  have hfile : fileAfter cfg.codec cfg.std ss = .ok (some bytes) := by
    obtain ⟨b, rest', e1, ⟨-, e2, -⟩, -⟩ := h.cons_inv
    simp only [List.cons.injEq] at e1
    obtain ⟨rfl, rfl⟩ := e1
    exact e2
  obtain ⟨bytes', h1, h2⟩ := map_reports cfg hcodec ss hs hd (hl (name, ss) (by simp))
  rw [hfile] at h1
  cases h1
  obtain ⟨ra, b, h3, -⟩ := h2 hlen
  have ht := open_either cfg true name bytes ra b h3 files
  have hff := open_either cfg false name bytes ra b h3 files
  rw [hff] at a1
  simp only [Prod.mk.injEq, true_and] at a1
  have hat : At cfg { files := (name, bytes) :: files, stream := { bytes := bytes }, readMap := true, ra := ra } name (allPuts ss) (contents.map fun c => (c.1, allPuts c.2)) := by
    rw [← a1] at a3
    exact ⟨a3.stream, a3.file, a3.files⟩
  -- what is delivered
  have hex : ∀ its : List (Str × Put), (∀ x ∈ its, delivery cfg x.1 x.2 ≠ none) → ∃ ds, All2 (fun x d => delivery cfg x.1 x.2 = some d) its ds := by
    intro its
    induction its with
    | nil => intro _; exact ⟨[], Lcio.All2.nil _⟩
    | cons x its ih =>
      intro hx
      obtain ⟨ds, g⟩ := ih fun y hy => hx y (by simp [hy])
      cases hd : delivery cfg x.1 x.2 with
      | none => exact absurd hd (hx x (by simp))
      | some d => exact ⟨d :: ds, Lcio.All2.cons hd g⟩
  obtain ⟨ds, hds⟩ := hex _ a5
  refine ⟨_, r0, ds, ht, by rw [hff, ← a1], fun gs => ?_, fun fuel hfu => ?_, fun maxNTasks s hs he => ((C90_order maxNTasks ds s hs).2 he).1⟩
  · obtain ⟨r3, d1, d2, -⟩ := C32_concatenation cfg hcodec _ _ h (by simp) hl gs
    rw [hff] at d1
    simp only [Prod.mk.injEq, true_and] at d1
    rw [← a1, d1, d2, serve_inTurn cfg gs _ _ hds]
  · exact recordLoop_reads cfg _ ds hds _ name _ _ hat a4 fuel (by rw [hds.1]; exact hfu)

/-- Two events and a run header between them, with two tasks: the second event is processed after the run header. -/
example (e1 e2 e3 : EventData) (h : RunHeader) : ∃ s, Steps 2 { left := [.event e1, .event e2, .run h, .event e3] } s ∧ s.phase = .ended ∧ InParallel [.event e1, .event e2, .run h, .event e3] s.printed := by
  obtain ⟨s, h1, h2⟩ := C90_can_finish 2 (by decide) [.event e1, .event e2, .run h, .event e3] _ (.refl _)
  exact ⟨s, h1, h2, ((C90_order 2 _ s h1).2 h2).1⟩

/-- The specification allows another order of the first two events, and nothing else. -/
example (e1 e2 : EventData) (h : RunHeader) : InParallel [.event e1, .event e2, .run h] [.event e2, .event e1, .run h] ∧
    ¬ InParallel [.event e1, .event e2, .run h] [.event e2, .run h, .event e1] := by
  have ho : OnlyEvents [.event e1, .event e2] := by
    intro d hd
    simp only [List.mem_cons, List.not_mem_nil, or_false] at hd
    rcases hd with rfl | rfl
    · exact ⟨_, rfl⟩
    · exact ⟨_, rfl⟩
  refine ⟨InParallel.run (es := [.event e1, .event e2]) (log := [.event e2, .event e1]) (ds := []) (log' := []) ho (List.Perm.swap ..) (.last (by intro d hd; cases hd) .nil), ?_⟩
  intro hp
  generalize hds : ([.event e1, .event e2, .run h] : List Delivery) = ds at hp
  generalize hlog : ([.event e2, .run h, .event e1] : List Delivery) = log at hp
  cases hp with
  | last h1 h2 =>
    subst hds
    obtain ⟨e, he⟩ := h1 (.run h) (by simp)
    cases he
  | @run es log ds log' hd h1 h2 h3 =>
    -- the events before the run header are two
    match es, hds with
    | [], hds => cases hds
    | [_], hds => simp at hds
    | [_, _], hds =>
      have := h2.length_eq
      match log, hlog, this with
      | [_, _], hlog, _ =>
        simp only [List.cons_append, List.nil_append, List.cons.injEq] at hlog
        obtain ⟨-, -, hx, -⟩ := hlog
        cases hx
    | _ :: _ :: _ :: es, hds => simp at hds

end Props
