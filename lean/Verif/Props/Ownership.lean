import Verif.Lcio.SioReader
import Verif.Props.Reopen
/-
C87: the events and run headers that readers hand out.
-/
namespace Props
open Sio Spec Lcio

/-- No call of a history threw an exception while the reader had an object of the kind that it reads. -/
def Smooth (cfg : RConfig) : List SioCall → SioReader → Prop
  | [], _ => True
  | c :: cs, s => ((∃ a, (s.call cfg c).1 = .ok a) ∨ ((c.isEvent = true → s.currentEvent = none) ∧ (c.isRun = true → s.currentRun = none))) ∧ Smooth cfg cs (s.call cfg c).2

/-- Exactly the objects handed out last exist. -/
structure Owned (s : SioReader) : Prop where
  events : s.events.map (·.1) = s.currentEvent.toList
  runs : s.runs.map (·.1) = s.currentRun.toList
  newEvent : ∀ a ∈ s.currentEvent, a < s.next
  newRun : ∀ a ∈ s.currentRun, a < s.next

theorem delete_one {α : Type} (heap : List (Nat × α)) (a : Nat) (h : heap.map (·.1) = [a]) : deleteAt heap a = .ok [] := by
  match heap, h with
  | [x], h =>
    simp only [List.map_cons, List.map_nil, List.cons.injEq, and_true] at h
    subst h
    unfold deleteAt
    obtain ⟨x, y⟩ := x
    simp

/-- Reading an event with a reader that owns what it should. -/
theorem takeEvent_owned (s : SioReader) (h : Owned s) (call : Reader → Except Err (Option EventData) × Reader) :
    (∀ e mt, call s.mt = (.error e, mt) → s.takeEvent call = (.error e, { s with events := [], mt := mt })) ∧
    (∀ mt, call s.mt = (.ok none, mt) → s.takeEvent call = (.ok none, { s with events := [], mt := mt, currentEvent := none })) ∧
    (∀ e mt, call s.mt = (.ok (some e), mt) →
      s.takeEvent call = (.ok (some s.next), { s with events := [(s.next, e)], mt := mt, currentEvent := some s.next, next := s.next + 1 })) := by
  have hd : deleteOld s.events s.currentEvent = .ok [] := by
    have he := h.events
    cases hc : s.currentEvent with
    | none =>
      rw [hc] at he
      simp only [Option.toList_none, List.map_eq_nil_iff] at he
      rw [he]; rfl
    | some a =>
      rw [hc] at he
      exact delete_one _ _ he
  unfold SioReader.takeEvent
  simp only [hd]
  refine ⟨fun e mt hm => by rw [hm], fun mt hm => by rw [hm], fun e mt hm => by rw [hm]⟩

/-- Reading a run header with a reader that owns what it should. -/
theorem takeRun_owned (s : SioReader) (h : Owned s) (call : Reader → Except Err (Option RunHeader) × Reader) :
    (∀ e mt, call s.mt = (.error e, mt) → s.takeRun call = (.error e, { s with runs := [], mt := mt })) ∧
    (∀ mt, call s.mt = (.ok none, mt) → s.takeRun call = (.ok none, { s with runs := [], mt := mt, currentRun := none })) ∧
    (∀ e mt, call s.mt = (.ok (some e), mt) →
      s.takeRun call = (.ok (some s.next), { s with runs := [(s.next, e)], mt := mt, currentRun := some s.next, next := s.next + 1 })) := by
  have hd : deleteOld s.runs s.currentRun = .ok [] := by
    have he := h.runs
    cases hc : s.currentRun with
    | none =>
      rw [hc] at he
      simp only [Option.toList_none, List.map_eq_nil_iff] at he
      rw [he]; rfl
    | some a =>
      rw [hc] at he
      exact delete_one _ _ he
  unfold SioReader.takeRun
  simp only [hd]
  refine ⟨fun e mt hm => by rw [hm], fun mt hm => by rw [hm], fun e mt hm => by rw [hm]⟩

/-- What the reader inside returns for a call. -/
def inner (cfg : RConfig) (r : Reader) : SioCall → Except Err Unit
  | .nextEvent => (r.readNextEvent cfg).1.map fun _ => ()
  | .event run evt => (r.readEvent cfg run evt).1.map fun _ => ()
  | .nextRun => (r.readNextRunHeader cfg).1.map fun _ => ()
  | .run run => (r.readRunHeader cfg run).1.map fun _ => ()
  | .other f => (f r).1

theorem takeEvent_step (s : SioReader) (h : Owned s) (call : Reader → Except Err (Option EventData) × Reader)
    (hs : (∃ a, (s.takeEvent call).1 = .ok a) ∨ s.currentEvent = none) :
    Owned (s.takeEvent call).2 ∧ (s.takeEvent call).1.map (fun _ => ()) = (call s.mt).1.map (fun _ => ()) ∧ (s.takeEvent call).2.mt = (call s.mt).2 ∧
    (∀ a, (s.takeEvent call).1 = .ok a → (s.takeEvent call).2.currentEvent = a ∧ ∀ x, a = some x → ∃ e, (call s.mt).1 = .ok (some e) ∧ (s.takeEvent call).2.events = [(x, e)]) ∧
    (s.takeEvent call).2.runs = s.runs ∧ (s.takeEvent call).2.currentRun = s.currentRun := by
  obtain ⟨h1, h2, h3⟩ := takeEvent_owned s h call
  rcases hm : call s.mt with ⟨res, mt⟩
  cases res with
  | error e =>
    rw [h1 e mt hm] at hs ⊢
    have hc : s.currentEvent = none := hs.elim (fun ⟨a, ha⟩ => nomatch ha) id
    refine ⟨⟨by rw [hc]; rfl, h.runs, h.newEvent, h.newRun⟩, rfl, rfl, fun a ha => (nomatch ha), rfl, rfl⟩
  | ok o =>
    cases o with
    | none =>
      rw [h2 mt hm]
      refine ⟨⟨rfl, h.runs, fun a ha => (nomatch ha), h.newRun⟩, rfl, rfl, ?_, rfl, rfl⟩
      intro a ha
      cases ha
      exact ⟨rfl, fun x hx => nomatch hx⟩
    | some e =>
      rw [h3 e mt hm]
      refine ⟨⟨rfl, h.runs, ?_, fun a ha => Nat.lt_succ_of_lt (h.newRun a ha)⟩, rfl, rfl, ?_, rfl, rfl⟩
      · intro a ha
        cases ha
        exact Nat.lt_succ_self _
      · intro a ha
        cases ha
        exact ⟨rfl, fun x hx => by cases hx; exact ⟨e, rfl, rfl⟩⟩

theorem takeRun_step (s : SioReader) (h : Owned s) (call : Reader → Except Err (Option RunHeader) × Reader)
    (hs : (∃ a, (s.takeRun call).1 = .ok a) ∨ s.currentRun = none) :
    Owned (s.takeRun call).2 ∧ (s.takeRun call).1.map (fun _ => ()) = (call s.mt).1.map (fun _ => ()) ∧ (s.takeRun call).2.mt = (call s.mt).2 ∧
    (∀ a, (s.takeRun call).1 = .ok a → (s.takeRun call).2.currentRun = a ∧ ∀ x, a = some x → ∃ e, (call s.mt).1 = .ok (some e) ∧ (s.takeRun call).2.runs = [(x, e)]) ∧
    (s.takeRun call).2.events = s.events ∧ (s.takeRun call).2.currentEvent = s.currentEvent := by
  obtain ⟨h1, h2, h3⟩ := takeRun_owned s h call
  rcases hm : call s.mt with ⟨res, mt⟩
  cases res with
  | error e =>
    rw [h1 e mt hm] at hs ⊢
    have hc : s.currentRun = none := hs.elim (fun ⟨a, ha⟩ => nomatch ha) id
    refine ⟨⟨h.events, by rw [hc]; rfl, h.newEvent, h.newRun⟩, rfl, rfl, fun a ha => (nomatch ha), rfl, rfl⟩
  | ok o =>
    cases o with
    | none =>
      rw [h2 mt hm]
      refine ⟨⟨h.events, rfl, h.newEvent, fun a ha => (nomatch ha)⟩, rfl, rfl, ?_, rfl, rfl⟩
      intro a ha
      cases ha
      exact ⟨rfl, fun x hx => nomatch hx⟩
    | some e =>
      rw [h3 e mt hm]
      refine ⟨⟨h.events, rfl, fun a ha => Nat.lt_succ_of_lt (h.newEvent a ha), ?_⟩, rfl, rfl, ?_, rfl, rfl⟩
      · intro a ha
        cases ha
        exact Nat.lt_succ_self _
      · intro a ha
        cases ha
        exact ⟨rfl, fun x hx => by cases hx; exact ⟨e, rfl, rfl⟩⟩

/-- One call. -/
theorem call_step (cfg : RConfig) (s : SioReader) (h : Owned s) (c : SioCall)
    (hs : (∃ a, (s.call cfg c).1 = .ok a) ∨ ((c.isEvent = true → s.currentEvent = none) ∧ (c.isRun = true → s.currentRun = none))) :
    Owned (s.call cfg c).2 ∧ (s.call cfg c).1.map (fun _ => ()) = inner cfg s.mt c ∧
    (c.isEvent = false → (s.call cfg c).2.events = s.events) ∧ (c.isRun = false → (s.call cfg c).2.runs = s.runs) := by
  cases c with
  | nextEvent =>
    obtain ⟨a1, a2, -, -, a5, -⟩ := takeEvent_step s h (·.readNextEvent cfg) (hs.imp id fun x => x.1 rfl)
    exact ⟨a1, a2, (fun h => nomatch h), fun _ => a5⟩
  | event run evt =>
    obtain ⟨a1, a2, -, -, a5, -⟩ := takeEvent_step s h (·.readEvent cfg run evt) (hs.imp id fun x => x.1 rfl)
    exact ⟨a1, a2, (fun h => nomatch h), fun _ => a5⟩
  | nextRun =>
    obtain ⟨a1, a2, -, -, a5, -⟩ := takeRun_step s h (·.readNextRunHeader cfg) (hs.imp id fun x => x.2 rfl)
    exact ⟨a1, a2, fun _ => a5, fun h => nomatch h⟩
  | run run =>
    obtain ⟨a1, a2, -, -, a5, -⟩ := takeRun_step s h (·.readRunHeader cfg run) (hs.imp id fun x => x.2 rfl)
    exact ⟨a1, a2, fun _ => a5, fun h => nomatch h⟩
  | other f =>
    simp only [SioReader.call, inner]
    rcases hm : f s.mt with ⟨res, mt⟩
    cases res with
    | error e => exact ⟨⟨h.events, h.runs, h.newEvent, h.newRun⟩, rfl, fun _ => rfl, fun _ => rfl⟩
    | ok u => exact ⟨⟨h.events, h.runs, h.newEvent, h.newRun⟩, rfl, fun _ => rfl, fun _ => rfl⟩

theorem smooth_owned (cfg : RConfig) (cs : List SioCall) (s : SioReader) (h : Owned s) (hs : Smooth cfg cs s) : Owned (afterCalls cfg cs s) := by
  induction cs generalizing s with
  | nil => exact h
  | cons c cs ih => exact ih _ (call_step cfg s h c hs.1).1 hs.2

theorem smooth_append (cfg : RConfig) (a b : List SioCall) (s : SioReader) : Smooth cfg (a ++ b) s ↔ Smooth cfg a s ∧ Smooth cfg b (afterCalls cfg a s) := by
  induction a generalizing s with
  | nil => simp [Smooth, afterCalls]
  | cons c a ih => simp only [List.cons_append, Smooth, afterCalls, ih, and_assoc]

theorem afterCalls_append (cfg : RConfig) (a b : List SioCall) (s : SioReader) : afterCalls cfg (a ++ b) s = afterCalls cfg b (afterCalls cfg a s) := by
  induction a generalizing s with
  | nil => rfl
  | cons c a ih => exact ih _

/-- A new reader. -/
def newSio (direct : Bool) : SioReader := { mt := Reader.new direct }

theorem newSio_owned (direct : Bool) : Owned (newSio direct) := ⟨rfl, rfl, (fun _ h => nomatch h), fun _ h => nomatch h⟩

/-- **C87**, as far as it holds. A reader is used for any calls, whatever is in the files, and none of those that read threw an exception while there was an object of its kind (the event or run header that was
handed out last). Then
* deleting goes right: each call has undefined behaviour only if the reader inside has, and throws or returns like it
* there are never more than the event and the run header that were handed out last, so that whatever number of events is read the memory needed does not grow
* an event that was handed out exists and is the same until the next call that reads an event, whatever other calls are made
* a run header that was handed out exists and is the same until the next call that reads a run header.

Missing: calls after an exception (`C87_fails_after_exception`); the last objects are never deleted (`C87_fails_at_end`). -/
theorem C87_events_partial (cfg : RConfig) (direct : Bool) (before : List SioCall) (hb : Smooth cfg before (newSio direct)) :
    (∀ c, (afterCalls cfg before (newSio direct)).call cfg c |>.1 |>.map (fun _ => ()) |> (· = inner cfg (afterCalls cfg before (newSio direct)).mt c)) ∧
    (afterCalls cfg before (newSio direct)).events.length ≤ 1 ∧ (afterCalls cfg before (newSio direct)).runs.length ≤ 1 ∧
    (∀ c s, (afterCalls cfg before (newSio direct)).call cfg c = s → ∀ a, s.1 = .ok (some a) → c.isEvent = true →
      ∃ e, s.2.events = [(a, e)] ∧ ((c = .nextEvent ∧ ((afterCalls cfg before (newSio direct)).mt.readNextEvent cfg).1 = .ok (some e)) ∨
          ∃ run evt, c = .event run evt ∧ ((afterCalls cfg before (newSio direct)).mt.readEvent cfg run evt).1 = .ok (some e)) ∧
        ∀ after, (∀ c ∈ after, c.isEvent = false) → Smooth cfg after s.2 → (afterCalls cfg after s.2).events.lookup a = some e) ∧
    ∀ c s, (afterCalls cfg before (newSio direct)).call cfg c = s → ∀ a, s.1 = .ok (some a) → c.isRun = true →
      ∃ h, s.2.runs = [(a, h)] ∧ ((c = .nextRun ∧ ((afterCalls cfg before (newSio direct)).mt.readNextRunHeader cfg).1 = .ok (some h)) ∨
          ∃ run, c = .run run ∧ ((afterCalls cfg before (newSio direct)).mt.readRunHeader cfg run).1 = .ok (some h)) ∧
        ∀ after, (∀ c ∈ after, c.isRun = false) → Smooth cfg after s.2 → (afterCalls cfg after s.2).runs.lookup a = some h := by
  have h := smooth_owned cfg before _ (newSio_owned direct) hb
  generalize afterCalls cfg before (newSio direct) = s at h
  have hkeep : ∀ (after : List SioCall) (t : SioReader), Owned t → (∀ c ∈ after, c.isEvent = false) → Smooth cfg after t → (afterCalls cfg after t).events = t.events := by
    intro after
    induction after with
    | nil => intro t _ _ _; rfl
    | cons c after ih =>
      intro t ht hc hs
      obtain ⟨b1, -, b3, -⟩ := call_step cfg t ht c hs.1
      rw [afterCalls, ih _ b1 (fun x hx => hc x (by simp [hx])) hs.2, b3 (hc c (by simp))]
  have hkeepR : ∀ (after : List SioCall) (t : SioReader), Owned t → (∀ c ∈ after, c.isRun = false) → Smooth cfg after t → (afterCalls cfg after t).runs = t.runs := by
    intro after
    induction after with
    | nil => intro t _ _ _; rfl
    | cons c after ih =>
      intro t ht hc hs
      obtain ⟨b1, -, -, b4⟩ := call_step cfg t ht c hs.1
      rw [afterCalls, ih _ b1 (fun x hx => hc x (by simp [hx])) hs.2, b4 (hc c (by simp))]
  refine ⟨?_, ?_, ?_, ?_, ?_⟩
  · intro c
    cases c with
    | nextEvent =>
      obtain ⟨h1, h2, h3⟩ := takeEvent_owned s h (·.readNextEvent cfg)
      simp only [SioReader.call, inner]
      rcases hm : s.mt.readNextEvent cfg with ⟨res, mt⟩
      match res, hm with
      | .error e, hm => rw [h1 e mt hm]; rfl
      | .ok none, hm => rw [h2 mt hm]; rfl
      | .ok (some e), hm => rw [h3 e mt hm]; rfl
    | event run evt =>
      obtain ⟨h1, h2, h3⟩ := takeEvent_owned s h (·.readEvent cfg run evt)
      simp only [SioReader.call, inner]
      rcases hm : s.mt.readEvent cfg run evt with ⟨res, mt⟩
      match res, hm with
      | .error e, hm => rw [h1 e mt hm]; rfl
      | .ok none, hm => rw [h2 mt hm]; rfl
      | .ok (some e), hm => rw [h3 e mt hm]; rfl
    | nextRun =>
      obtain ⟨h1, h2, h3⟩ := takeRun_owned s h (·.readNextRunHeader cfg)
      simp only [SioReader.call, inner]
      rcases hm : s.mt.readNextRunHeader cfg with ⟨res, mt⟩
      match res, hm with
      | .error e, hm => rw [h1 e mt hm]; rfl
      | .ok none, hm => rw [h2 mt hm]; rfl
      | .ok (some e), hm => rw [h3 e mt hm]; rfl
    | run run =>
      obtain ⟨h1, h2, h3⟩ := takeRun_owned s h (·.readRunHeader cfg run)
      simp only [SioReader.call, inner]
      rcases hm : s.mt.readRunHeader cfg run with ⟨res, mt⟩
      match res, hm with
      | .error e, hm => rw [h1 e mt hm]; rfl
      | .ok none, hm => rw [h2 mt hm]; rfl
      | .ok (some e), hm => rw [h3 e mt hm]; rfl
    | other f =>
      simp only [SioReader.call, inner]
      rcases hm : f s.mt with ⟨res, mt⟩
      cases res <;> rfl
  · have := congrArg List.length h.events
    rw [List.length_map] at this
    rw [this]
    cases s.currentEvent <;> simp
  · have := congrArg List.length h.runs
    rw [List.length_map] at this
    rw [this]
    cases s.currentRun <;> simp
  · intro c t ht a ha hc
    subst ht
    obtain ⟨b1, -⟩ := call_step cfg s h c (.inl ⟨_, ha⟩)
    have key : ∃ e, (s.call cfg c).2.events = [(a, e)] ∧ ((c = .nextEvent ∧ (s.mt.readNextEvent cfg).1 = .ok (some e)) ∨
        ∃ run evt, c = .event run evt ∧ (s.mt.readEvent cfg run evt).1 = .ok (some e)) := by
      cases c with
      | nextEvent =>
        obtain ⟨-, -, -, a4, -⟩ := takeEvent_step s h (·.readNextEvent cfg) (.inl ⟨_, ha⟩)
        obtain ⟨e, e1, e2⟩ := (a4 _ ha).2 a rfl
        exact ⟨e, e2, .inl ⟨rfl, e1⟩⟩
      | event run evt =>
        obtain ⟨-, -, -, a4, -⟩ := takeEvent_step s h (·.readEvent cfg run evt) (.inl ⟨_, ha⟩)
        obtain ⟨e, e1, e2⟩ := (a4 _ ha).2 a rfl
        exact ⟨e, e2, .inr ⟨run, evt, rfl, e1⟩⟩
      | nextRun => cases hc
      | run run => cases hc
      | other f => cases hc
    obtain ⟨e, e1, e2⟩ := key
    refine ⟨e, e1, e2, fun after hafter hsm => ?_⟩
    rw [hkeep after _ b1 hafter hsm, e1]
    simp
  · intro c t ht a ha hc
    subst ht
    obtain ⟨b1, -⟩ := call_step cfg s h c (.inl ⟨_, ha⟩)
    have key : ∃ e, (s.call cfg c).2.runs = [(a, e)] ∧ ((c = .nextRun ∧ (s.mt.readNextRunHeader cfg).1 = .ok (some e)) ∨
        ∃ run, c = .run run ∧ (s.mt.readRunHeader cfg run).1 = .ok (some e)) := by
      cases c with
      | nextRun =>
        obtain ⟨-, -, -, a4, -⟩ := takeRun_step s h (·.readNextRunHeader cfg) (.inl ⟨_, ha⟩)
        obtain ⟨e, e1, e2⟩ := (a4 _ ha).2 a rfl
        exact ⟨e, e2, .inl ⟨rfl, e1⟩⟩
      | run run =>
        obtain ⟨-, -, -, a4, -⟩ := takeRun_step s h (·.readRunHeader cfg run) (.inl ⟨_, ha⟩)
        obtain ⟨e, e1, e2⟩ := (a4 _ ha).2 a rfl
        exact ⟨e, e2, .inr ⟨run, rfl, e1⟩⟩
      | nextEvent => cases hc
      | event run evt => cases hc
      | other f => cases hc
    obtain ⟨e, e1, e2⟩ := key
    refine ⟨e, e1, e2, fun after hafter hsm => ?_⟩
    rw [hkeepR after _ b1 hafter hsm, e1]
    simp

/-- **C87** fails after an exception: the reader has handed out an event, and the next call to read an event throws, for example since the next event in the file is damaged. The exception is caught. Then the
next call to read an event has undefined behaviour, whatever calls that read no event are made before: the event that was handed out is deleted a second time. -/
theorem C87_fails_after_exception (cfg : RConfig) (direct : Bool) (before : List SioCall) (hb : Smooth cfg before (newSio direct)) (a : Nat)
    (ha : (afterCalls cfg before (newSio direct)).currentEvent = some a) (c : SioCall) (hc : c.isEvent = true) (err : Err)
    (he : ((afterCalls cfg before (newSio direct)).call cfg c).1 = .error err) (between : List SioCall) (hbt : ∀ c ∈ between, c.isEvent = false) (next : SioCall)
    (hn : next.isEvent = true) : ((afterCalls cfg (before ++ c :: between) (newSio direct)).call cfg next).1 = .error .ub := by
  rw [afterCalls_append, afterCalls]
  have h := smooth_owned cfg before _ (newSio_owned direct) hb
  generalize afterCalls cfg before (newSio direct) = s at h ha he
  have hbad : (s.call cfg c).2.currentEvent = some a ∧ (s.call cfg c).2.events = [] := by
    cases c with
    | nextEvent =>
      obtain ⟨h1, h2, h3⟩ := takeEvent_owned s h (·.readNextEvent cfg)
      simp only [SioReader.call] at he ⊢
      rcases hm : s.mt.readNextEvent cfg with ⟨res, mt⟩
      match res, hm with
      | .error e, hm => rw [h1 e mt hm]; exact ⟨ha, rfl⟩
      | .ok none, hm => rw [h2 mt hm] at he; cases he
      | .ok (some e), hm => rw [h3 e mt hm] at he; cases he
    | event run evt =>
      obtain ⟨h1, h2, h3⟩ := takeEvent_owned s h (·.readEvent cfg run evt)
      simp only [SioReader.call] at he ⊢
      rcases hm : s.mt.readEvent cfg run evt with ⟨res, mt⟩
      match res, hm with
      | .error e, hm => rw [h1 e mt hm]; exact ⟨ha, rfl⟩
      | .ok none, hm => rw [h2 mt hm] at he; cases he
      | .ok (some e), hm => rw [h3 e mt hm] at he; cases he
    | nextRun => cases hc
    | run run => cases hc
    | other f => cases hc
  generalize (s.call cfg c).2 = t at hbad
  have hrun : ∀ (t : SioReader) (call : Reader → Except Err (Option RunHeader) × Reader), (t.takeRun call).2.currentEvent = t.currentEvent ∧ (t.takeRun call).2.events = t.events := by
    intro t call
    unfold SioReader.takeRun
    split
    · exact ⟨rfl, rfl⟩
    · split <;> exact ⟨rfl, rfl⟩
  have hkeep : ∀ (between : List SioCall) (_ : ∀ c ∈ between, c.isEvent = false) (t : SioReader),
      (afterCalls cfg between t).currentEvent = t.currentEvent ∧ (afterCalls cfg between t).events = t.events := by
    intro between
    induction between with
    | nil => intro _ t; exact ⟨rfl, rfl⟩
    | cons c between ih =>
      intro hb t
      have hstep : (t.call cfg c).2.currentEvent = t.currentEvent ∧ (t.call cfg c).2.events = t.events := by
        have := hb c (by simp)
        cases c with
        | nextEvent => cases this
        | event run evt => cases this
        | nextRun => exact hrun t _
        | run run => exact hrun t _
        | other f =>
          simp only [SioReader.call]
          split <;> exact ⟨rfl, rfl⟩
      obtain ⟨i1, i2⟩ := ih (fun x hx => hb x (by simp [hx])) (t.call cfg c).2
      exact ⟨i1.trans hstep.1, i2.trans hstep.2⟩
  obtain ⟨k1, k2⟩ := hkeep between hbt t
  generalize afterCalls cfg between t = u at k1 k2
  have hub : ∀ call, (u.takeEvent call).1 = .error .ub := by
    intro call
    unfold SioReader.takeEvent
    simp only [k1, k2, hbad.1, hbad.2]
    rfl
  cases next with
  | nextEvent => exact hub _
  | event run evt => exact hub _
  | nextRun => cases hn
  | run run => cases hn
  | other f => cases hn

/-- **C87** fails at the end: an event that was handed out and not replaced since is never deleted, whatever else the reader is used for before it is destroyed. -/
theorem C87_fails_at_end (cfg : RConfig) (direct : Bool) (before : List SioCall) (hb : Smooth cfg before (newSio direct)) (c : SioCall) (hc : c.isEvent = true) (a : Nat)
    (ha : ((afterCalls cfg before (newSio direct)).call cfg c).1 = .ok (some a)) (after : List SioCall) (hn : ∀ c ∈ after, c.isEvent = false)
    (hs : Smooth cfg after (afterCalls cfg (before ++ [c]) (newSio direct))) :
    ∃ e, (afterCalls cfg (before ++ c :: after) (newSio direct)).destroy.1 = [(a, e)] := by
  rw [afterCalls_append] at hs ⊢
  obtain ⟨-, -, -, h, -⟩ := C87_events_partial cfg direct before hb
  obtain ⟨e, -, -, h3⟩ := h c _ rfl a ha hc
  have h4 := h3 after hn hs
  have ho : Owned (afterCalls cfg after ((afterCalls cfg before (newSio direct)).call cfg c).2) :=
    smooth_owned cfg after _ (call_step cfg _ (smooth_owned cfg before _ (newSio_owned direct) hb) c (.inl ⟨_, ha⟩)).1 hs
  refine ⟨e, ?_⟩
  rw [afterCalls]
  unfold SioReader.destroy
  generalize afterCalls cfg after ((afterCalls cfg before (newSio direct)).call cfg c).2 = s at h4 ho
  have h5 := ho.events
  cases hcur : s.currentEvent with
  | none =>
    rw [hcur] at h5
    simp only [Option.toList_none, List.map_eq_nil_iff] at h5
    rw [h5] at h4
    simp at h4
  | some b =>
    rw [hcur] at h5
    match hev : s.events, h5, h4 with
    | [(x, y)], h5, h4 =>
      simp only [List.lookup_cons, List.lookup_nil] at h4
      split at h4
      · next heq =>
        have : a = x := by simpa using heq
        cases h4
        rw [this]
      · cases h4

/-! ## Cases -/

/-- A file with an event and a run header, and then 50 bytes that are no record. -/
def brokenEnd : List Byte := fileOfSessions [⟨false, [.event { run := 1, evt := 0 } [] ([], []), .run { run := 2 } []]⟩] ++ List.replicate 50 1

/-- `open` as a call. -/
def openCall (name : Str) (bytes : List Byte) : SioCall := .other fun r => r.openName sampleCfg name bytes

/-- An event is read and then what is no record, which throws. The next call is undefined. -/
example : (results sampleCfg [openCall (str "f") brokenEnd, .nextEvent, .nextEvent, .nextRun, .nextEvent] (newSio false)).map
      (fun r => (r.toOption, decide (r = .error .ub))) =
    [(some none, false), (some (some 0), false), (none, false), (none, false), (none, true)] := by
  decide +kernel

/-- Up to the exception it is all right. -/
example : (afterCalls sampleCfg [openCall (str "f") brokenEnd, .nextEvent] (newSio false)).currentEvent = some 0 ∧
    Smooth sampleCfg [openCall (str "f") brokenEnd, .nextEvent] (newSio false) := by
  refine ⟨by decide +kernel, .inl ⟨none, ?_⟩, .inl ⟨some 0, ?_⟩, trivial⟩
  · have : ((newSio false).call sampleCfg (openCall (str "f") brokenEnd)).1.toOption = some none := by decide +kernel
    revert this
    cases ((newSio false).call sampleCfg (openCall (str "f") brokenEnd)).1 with
    | error e => intro h; cases h
    | ok a => intro h; cases h; rfl
  · have : (((newSio false).call sampleCfg (openCall (str "f") brokenEnd)).2.call sampleCfg .nextEvent).1.toOption = some (some 0) := by decide +kernel
    revert this
    cases (((newSio false).call sampleCfg (openCall (str "f") brokenEnd)).2.call sampleCfg .nextEvent).1 with
    | error e => intro h; cases h
    | ok a => intro h; cases h; rfl

end Props
