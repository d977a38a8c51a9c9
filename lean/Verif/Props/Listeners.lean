import Verif.Lcio.Listeners
import Verif.Props.Ownership
import Verif.Props.SessionCases
/-
C88: listeners of readers.
-/
namespace Props
open Sio Spec Lcio

theorem mem_insertAddr (a b : Nat) (l : List Nat) : b ∈ insertAddr a l ↔ b = a ∨ b ∈ l := by
  induction l with
  | nil => simp [insertAddr]
  | cons c l ih =>
    unfold insertAddr
    split
    · simp
    · split
      · next h => subst h; simp
      · simp only [List.mem_cons, ih]
        constructor
        · rintro (h | h | h) <;> simp [h]
        · rintro (h | h | h) <;> simp [h]

theorem sorted_insertAddr (a : Nat) (l : List Nat) (h : l.Pairwise (· < ·)) : (insertAddr a l).Pairwise (· < ·) := by
  induction l with
  | nil => simp [insertAddr]
  | cons c l ih =>
    obtain ⟨h1, h2⟩ := List.pairwise_cons.1 h
    unfold insertAddr
    split
    · next hac =>
      refine List.pairwise_cons.2 ⟨fun x hx => ?_, h⟩
      rcases List.mem_cons.1 hx with rfl | hx
      · exact hac
      · exact Nat.lt_trans hac (h1 x hx)
    · split
      · exact h
      · refine List.pairwise_cons.2 ⟨fun x hx => ?_, ih h2⟩
        rcases (mem_insertAddr a x l).1 hx with rfl | hx
        · omega
        · exact h1 x hx

/-- After any calls of the functions that register and remove listeners the sets are in order of addresses. -/
theorem sets_sorted (history : List Change) (s s' : Sets) (hs : s.events.Pairwise (· < ·) ∧ s.runs.Pairwise (· < ·)) (h : s.applyAll history = .ok s') :
    s'.events.Pairwise (· < ·) ∧ s'.runs.Pairwise (· < ·) := by
  induction history generalizing s with
  | nil => cases h; exact hs
  | cons c cs ih =>
    unfold Sets.applyAll at h
    cases hc : s.apply c with
    | error e => rw [hc] at h; cases h
    | ok s1 =>
      rw [hc] at h
      refine ih s1 ?_ h
      have hrem : ∀ a (l l' : List Nat), l.Pairwise (· < ·) → removeAddr a l = .ok l' → l'.Pairwise (· < ·) := by
        intro a l l' hl hr
        unfold removeAddr at hr
        split at hr
        · cases hr; exact hl.filter _
        · cases hr
      cases c with
      | addEvent a => cases hc; exact ⟨sorted_insertAddr a _ hs.1, hs.2⟩
      | addRun a => cases hc; exact ⟨hs.1, sorted_insertAddr a _ hs.2⟩
      | removeEvent a =>
        simp only [Sets.apply] at hc
        cases hr : removeAddr a s.events with
        | error e => rw [hr] at hc; cases hc
        | ok l => rw [hr] at hc; cases hc; exact ⟨hrem a _ _ hs.1 hr, hs.2⟩
      | removeRun a =>
        simp only [Sets.apply] at hc
        cases hr : removeAddr a s.runs with
        | error e => rw [hr] at hc; cases hc
        | ok l => rw [hr] at hc; cases hc; exact ⟨hs.1, hrem a _ _ hs.2 hr⟩

theorem removeAddr_mem (a b : Nat) (l l' : List Nat) (h : removeAddr a l = .ok l') : b ∈ l' ↔ b ∈ l ∧ b ≠ a := by
  unfold removeAddr at h
  split at h
  · cases h; simp
  · cases h

/-- Whether a listener is there after one of the functions. -/
theorem apply_mem (s s' : Sets) (c : Change) (h : s.apply c = .ok s') (a : Nat) :
    (a ∈ s'.events ↔ c = .addEvent a ∨ a ∈ s.events ∧ c ≠ .removeEvent a) ∧ (a ∈ s'.runs ↔ c = .addRun a ∨ a ∈ s.runs ∧ c ≠ .removeRun a) := by
  cases c with
  | addEvent b =>
    cases h
    simp only [mem_insertAddr]
    refine ⟨⟨?_, ?_⟩, by simp⟩
    · rintro (rfl | h) <;> simp_all
    · rintro (h | h)
      · cases h; exact .inl rfl
      · exact .inr h.1
  | addRun b =>
    cases h
    simp only [mem_insertAddr]
    refine ⟨by simp, ?_, ?_⟩
    · rintro (rfl | h) <;> simp_all
    · rintro (h | h)
      · cases h; exact .inl rfl
      · exact .inr h.1
  | removeEvent b =>
    simp only [Sets.apply] at h
    cases hr : removeAddr b s.events with
    | error e => rw [hr] at h; cases h
    | ok l =>
      rw [hr] at h
      cases h
      refine ⟨?_, by simp⟩
      rw [removeAddr_mem b a _ _ hr]
      constructor
      · rintro ⟨h1, h2⟩; exact .inr ⟨h1, fun h => by cases h; exact h2 rfl⟩
      · rintro (h | ⟨h1, h2⟩)
        · cases h
        · exact ⟨h1, fun h => h2 (by rw [h])⟩
  | removeRun b =>
    simp only [Sets.apply] at h
    cases hr : removeAddr b s.runs with
    | error e => rw [hr] at h; cases h
    | ok l =>
      rw [hr] at h
      cases h
      refine ⟨by simp, ?_⟩
      rw [removeAddr_mem b a _ _ hr]
      constructor
      · rintro ⟨h1, h2⟩; exact .inr ⟨h1, fun h => by cases h; exact h2 rfl⟩
      · rintro (h | ⟨h1, h2⟩)
        · cases h
        · exact ⟨h1, fun h => h2 (by rw [h])⟩

theorem registered_cons (add remove c : Change) (hne : add ≠ remove) (cs : List Change) :
    Registered add remove (c :: cs) ↔ Registered add remove cs ∨ (c = add ∧ remove ∉ cs) := by
  unfold Registered
  constructor
  · rintro ⟨b, a, h1, h2⟩
    cases b with
    | nil =>
      simp only [List.nil_append, List.cons.injEq] at h1
      obtain ⟨rfl, rfl⟩ := h1
      exact .inr ⟨rfl, h2⟩
    | cons x b =>
      simp only [List.cons_append, List.cons.injEq] at h1
      exact .inl ⟨b, a, h1.2, h2⟩
  · rintro (⟨b, a, rfl, h2⟩ | ⟨rfl, h2⟩)
    · exact ⟨c :: b, a, rfl, h2⟩
    · exact ⟨[], cs, rfl, h2⟩

/-- **C88**, who is registered: after any calls that are not undefined, exactly those are in the sets that were registered and not removed since, once each. -/
theorem C88_registered (history : List Change) (s : Sets) (h : Sets.applyAll {} history = .ok s) :
    (∀ a, a ∈ s.events ↔ Registered (.addEvent a) (.removeEvent a) history) ∧ (∀ a, a ∈ s.runs ↔ Registered (.addRun a) (.removeRun a) history) ∧
    s.events.Nodup ∧ s.runs.Nodup := by
  have key : ∀ (history : List Change) (s0 s : Sets), s0.applyAll history = .ok s → ∀ a,
      (a ∈ s.events ↔ Registered (.addEvent a) (.removeEvent a) history ∨ a ∈ s0.events ∧ Change.removeEvent a ∉ history) ∧
      (a ∈ s.runs ↔ Registered (.addRun a) (.removeRun a) history ∨ a ∈ s0.runs ∧ Change.removeRun a ∉ history) := by
    intro history
    induction history with
    | nil =>
      intro s0 s h a
      cases h
      simp [Registered]
    | cons c cs ih =>
      intro s0 s h a
      unfold Sets.applyAll at h
      cases hc : s0.apply c with
      | error e => rw [hc] at h; cases h
      | ok s1 =>
        rw [hc] at h
        obtain ⟨i1, i2⟩ := ih s1 s h a
        obtain ⟨m1, m2⟩ := apply_mem s0 s1 c hc a
        rw [i1, i2, m1, m2, registered_cons _ _ _ (by simp), registered_cons _ _ _ (by simp)]
        simp only [List.mem_cons, not_or]
        constructor
        · constructor
          · rintro (h | ⟨h | ⟨h, h'⟩, h''⟩)
            · exact .inl (.inl h)
            · exact .inl (.inr ⟨h, h''⟩)
            · exact .inr ⟨h, fun hh => h' hh.symm, h''⟩
          · rintro ((h | ⟨h, h'⟩) | ⟨h, h', h''⟩)
            · exact .inl h
            · exact .inr ⟨.inl h, h'⟩
            · exact .inr ⟨.inr ⟨h, fun hh => h' hh.symm⟩, h''⟩
        · constructor
          · rintro (h | ⟨h | ⟨h, h'⟩, h''⟩)
            · exact .inl (.inl h)
            · exact .inl (.inr ⟨h, h''⟩)
            · exact .inr ⟨h, fun hh => h' hh.symm, h''⟩
          · rintro ((h | ⟨h, h'⟩) | ⟨h, h', h''⟩)
            · exact .inl h
            · exact .inr ⟨.inl h, h'⟩
            · exact .inr ⟨.inr ⟨h, fun hh => h' hh.symm⟩, h''⟩
  have hs := sets_sorted history {} s ⟨List.Pairwise.nil, List.Pairwise.nil⟩ h
  refine ⟨fun a => ?_, fun a => ?_, hs.1.imp fun h => Nat.ne_of_lt h, hs.2.imp fun h => Nat.ne_of_lt h⟩
  · rw [(key history {} s h a).1]; simp
  · rw [(key history {} s h a).2]; simp

/-- **C88** fails if a listener that is not registered is removed: this is undefined. -/
theorem C88_fails_not_registered (history : List Change) (s : Sets) (h : Sets.applyAll {} history = .ok s) (a : Nat) :
    (¬ Registered (.addEvent a) (.removeEvent a) history → s.apply (.removeEvent a) = .error .ub) ∧
    (¬ Registered (.addRun a) (.removeRun a) history → s.apply (.removeRun a) = .error .ub) := by
  obtain ⟨h1, h2, -⟩ := C88_registered history s h
  constructor
  · intro hr
    rw [← h1] at hr
    unfold Sets.apply removeAddr
    simp only [if_neg hr]
    rfl
  · intro hr
    rw [← h2] at hr
    unfold Sets.apply removeAddr
    simp only [if_neg hr]
    rfl

/-- In a list in ascending order, what comes after an element is what is greater. -/
theorem find_next (l1 : List Nat) (a : Nat) (l2 : List Nat) (h : (l1 ++ a :: l2).Pairwise (· < ·)) : (l1 ++ a :: l2).find? (decide <| a < ·) = l2.head? := by
  rw [List.find?_append]
  obtain ⟨h1, h2, h3⟩ := List.pairwise_append.1 h
  have : l1.find? (decide <| a < ·) = none := by
    rw [List.find?_eq_none]
    intro x hx
    have := h3 x hx a (by simp)
    simp; omega
  rw [this]
  simp only [Option.none_or]
  rw [List.find?_cons_of_neg (by simp)]
  cases l2 with
  | nil => rfl
  | cons b l2 =>
    have : a < b := (List.pairwise_cons.1 h2).1 b (by simp)
    rw [List.find?_cons_of_pos (by simpa using this)]
    rfl

theorem visit_quiet {σ α : Type} (q : Quiet σ α) (mk : α → Delivery) (sel : Sets → List Nat) (own : Nat → Change) (s : Sets) (hs : (sel s).Pairwise (· < ·)) :
    ∀ (l2 : List Nat) (fuel : Nat), l2.length ≤ fuel → ∀ (l1 : List Nat), sel s = l1 ++ l2 → ∀ (st : σ) (x : α),
      visit mk sel own q.listener fuel l2.head? s st x = ((q.tell mk l2 st x).1, .ok (s, (q.tell mk l2 st x).2)) := by
  intro l2
  induction l2 with
  | nil =>
    intro fuel _ l1 _ st x
    cases fuel <;> rfl
  | cons a l2 ih =>
    intro fuel hf l1 hl st x
    cases fuel with
    | zero => simp at hf
    | succ fuel =>
      simp only [List.head?_cons, visit, Quiet.listener, List.not_mem_nil, if_false, Sets.applyAll]
      rw [show (sel s).find? (fun x => decide (a < x)) = l2.head? by rw [hl]; exact find_next l1 a l2 (by rw [← hl]; exact hs)]
      have := ih fuel (by simpa using hf) (l1 ++ [a]) (by rw [hl]; simp) (q.process a (q.modify a st x).1 (q.modify a st x).2) (q.modify a st x).2
      unfold Quiet.listener at this
      rw [this]
      rfl

theorem tellAll_quiet {σ : Type} (qe : Quiet σ EventData) (qr : Quiet σ RunHeader) (s : Sets) (hs : s.events.Pairwise (· < ·) ∧ s.runs.Pairwise (· < ·)) (fuel : Nat)
    (hf : s.events.length ≤ fuel ∧ s.runs.length ≤ fuel) (ds : List Delivery) (st : σ) :
    (⟨qe.listener, qr.listener⟩ : Listeners σ).tellAll fuel ds s st =
      ((tellAll qe qr s.events s.runs ds st).1, .ok (s, (tellAll qe qr s.events s.runs ds st).2)) := by
  induction ds generalizing st with
  | nil => rfl
  | cons d ds ih =>
    cases d with
    | event e =>
      unfold Listeners.tellAll Listeners.tell
      simp only
      rw [visit_quiet qe .event Sets.events .removeEvent s hs.1 s.events fuel hf.1 [] rfl st e]
      simp only [ih]
      rfl
    | run h =>
      unfold Listeners.tellAll Listeners.tell
      simp only
      rw [visit_quiet qr .run Sets.runs .removeRun s hs.2 s.runs fuel hf.2 [] rfl st h]
      simp only [ih]
      rfl

/-- What is in files, as it is delivered. -/
theorem handed_one (cfg : RConfig) (its : List (Str × Put)) : (handed cfg 1 its).map (·.2) = its.flatMap fun x => (delivery cfg x.1 x.2).toList := by
  unfold handed
  induction its with
  | nil => rfl
  | cons x its ih =>
    simp only [List.flatMap_cons, List.map_append, ih]
    cases delivery cfg x.1 x.2 <;> simp

/-- **C88**, as far as it holds. A program registers and removes listeners in any way that is defined, opens files and reads `n` records. Its listeners do not throw exceptions and do not register or remove
any while reading; apart from that they can do anything: change the events and run headers when they may, and depend on all they have been called with. Then everything in the files, in its order, is given to all listeners of its
kind that are registered (`C88_registered`), each first to modify it and then to process it, with the changes of those before.

Missing: the listeners are called in the order of their addresses, not in that in which they were registered (`C88_fails_order`); what happens when they register or remove others (`C88_fails_removes_itself`). -/
theorem C88_everyone_partial {σ : Type} (cfg : RConfig) (hcodec : Lossless cfg.codec) (files : List (Str × List Byte)) (contents : List (Str × List Session))
    (h : FilesHold cfg.codec cfg.std files contents) (hne : files ≠ []) (hl : ∀ c ∈ contents, Loadable cfg (allPuts c.2)) (history : List Change) (s : Sets)
    (hh : Sets.applyAll {} history = .ok s) (qe : Quiet σ EventData) (qr : Quiet σ RunHeader) (fuel : Nat) (hf : s.events.length ≤ fuel ∧ s.runs.length ≤ fuel) (st : σ) :
    ∃ r, Reader.openFiles cfg false files = (.ok (), r) ∧
      (∀ n : Nat, 0 < n → n < 2147483647 →
        let told := tellAll qe qr s.events s.runs (((contentsOf contents).take n).flatMap fun x => (delivery cfg x.1 x.2).toList) st
        (({ mt := r } : SioReader).readStream cfg ⟨qe.listener, qr.listener⟩ fuel s st n) =
          (told.1, if n ≤ (contentsOf contents).length then .ok (s, told.2) else .error .endOfData)) ∧
      let told := tellAll qe qr s.events s.runs ((contentsOf contents).flatMap fun x => (delivery cfg x.1 x.2).toList) st
      (({ mt := r } : SioReader).readStream cfg ⟨qe.listener, qr.listener⟩ fuel s st intMax) = (told.1, .ok (s, told.2)) := by
  have hs := sets_sorted history {} s ⟨List.Pairwise.nil, List.Pairwise.nil⟩ hh
  obtain ⟨r, log, r', a1, a2, a3⟩ := C33_everything_partial cfg hcodec files contents h hne hl 1 (.inl (Nat.le_refl 1))
  refine ⟨r, a1, fun n hn hmax => ?_, ?_⟩
  · obtain ⟨r0, log, res, r', b1, b2, b3, b4, -⟩ := C33_listeners_partial cfg hcodec files contents h hne hl 1 (.inl (Nat.le_refl 1)) n hn hmax
    rw [a1] at b1
    simp only [Prod.mk.injEq, true_and] at b1
    subst b1
    unfold SioReader.readStream
    simp only [b2, b3, handed_one]
    rw [tellAll_quiet qe qr s hs fuel hf]
    simp only
    rw [b4]
    split <;> rfl
  · unfold SioReader.readStream
    simp only [a2, a3, handed_one]
    rw [tellAll_quiet qe qr s hs fuel hf]
    rfl

/-- The calls of one listener of events to process them. -/
def processed (a : Nat) (told : List Told) : List EventData :=
  told.filterMap fun t => match t with
    | (b, false, .event e) => if a = b then some e else none
    | _ => none

theorem processed_tell {σ : Type} (q : Quiet σ EventData) (hq : ∀ a st x, (q.modify a st x).2 = x) (l : List Nat) (hl : l.Nodup) (a : Nat) (st : σ) (e : EventData) :
    processed a (q.tell .event l st e).1 = if a ∈ l then [e] else [] := by
  induction l generalizing st with
  | nil => rfl
  | cons b l ih =>
    obtain ⟨h1, h2⟩ := List.nodup_cons.1 hl
    unfold Quiet.tell
    simp only [hq]
    have hi := ih h2 (q.process b (q.modify b st e).1 e)
    unfold processed at hi ⊢
    simp only [List.filterMap_cons]
    by_cases hab : a = b
    · subst hab
      rw [hi]
      simp [h1]
    · rw [hi]
      simp [hab]

theorem processed_run {σ : Type} (q : Quiet σ RunHeader) (l : List Nat) (a : Nat) (st : σ) (h : RunHeader) : processed a (q.tell .run l st h).1 = [] := by
  induction l generalizing st h with
  | nil => rfl
  | cons b l ih =>
    unfold Quiet.tell
    simp only
    have hi := ih (q.process b (q.modify b st h).1 (q.modify b st h).2) (q.modify b st h).2
    unfold processed at hi ⊢
    simp only [List.filterMap_cons]
    exact hi

/-- **C88** for listeners of events that change none: each one that is registered processes exactly the events in the files, in their order and once each, and those that are not registered none. -/
theorem C88_each_event_once {σ : Type} (qe : Quiet σ EventData) (hq : ∀ a st x, (qe.modify a st x).2 = x) (qr : Quiet σ RunHeader) (history : List Change) (s : Sets)
    (hh : Sets.applyAll {} history = .ok s) (ds : List Delivery) (st : σ) (a : Nat) :
    (Registered (.addEvent a) (.removeEvent a) history → processed a (tellAll qe qr s.events s.runs ds st).1 = ds.filterMap fun d => match d with | .event e => some e | .run _ => none) ∧
    (¬ Registered (.addEvent a) (.removeEvent a) history → processed a (tellAll qe qr s.events s.runs ds st).1 = []) := by
  obtain ⟨h1, -, h3, -⟩ := C88_registered history s hh
  rw [← h1 a]
  have happ : ∀ x y, processed a (x ++ y) = processed a x ++ processed a y := fun x y => List.filterMap_append ..
  induction ds generalizing st with
  | nil => exact ⟨fun _ => rfl, fun _ => rfl⟩
  | cons d ds ih =>
    cases d with
    | event e =>
      simp only [tellAll, happ, processed_tell qe hq s.events h3]
      obtain ⟨i1, i2⟩ := ih (qe.tell .event s.events st e).2
      refine ⟨fun h => ?_, fun h => ?_⟩
      · rw [i1 h, if_pos h]; rfl
      · rw [i2 h, if_neg h]; rfl
    | run r =>
      simp only [tellAll, happ, processed_run]
      obtain ⟨i1, i2⟩ := ih (qr.tell .run s.runs st r).2
      refine ⟨fun h => ?_, fun h => ?_⟩
      · rw [i1 h]; rfl
      · rw [i2 h]; rfl

/-- **C88** fails for the order: of two listeners the one with the smaller address is always called first, whichever was registered first. -/
theorem C88_fails_order {σ : Type} (a b : Nat) (hab : a < b) (qe : Quiet σ EventData) (qr : Quiet σ RunHeader) (fuel : Nat) (hf : 2 ≤ fuel) (st : σ) (e : EventData) :
    ∃ s, Sets.applyAll {} [.addEvent b, .addEvent a] = .ok s ∧ Sets.applyAll {} [.addEvent a, .addEvent b] = .ok s ∧
      ((⟨qe.listener, qr.listener⟩ : Listeners σ).tell fuel s st (.event e)).1.map (fun t => (t.1, t.2.1)) = [(a, true), (a, false), (b, true), (b, false)] := by
  refine ⟨⟨[a, b], []⟩, ?_, ?_, ?_⟩
  · simp [Sets.applyAll, Sets.apply, insertAddr, hab]
  · simp [Sets.applyAll, Sets.apply, insertAddr, Nat.lt_asymm hab, Nat.ne_of_gt hab]
  · simp only [Listeners.tell]
    rw [visit_quiet qe .event Sets.events .removeEvent ⟨[a, b], []⟩ (by simp [hab]) [a, b] fuel hf [] rfl st e]
    rfl

/-- **C88** fails for listeners that remove themselves, for example after they have seen the event that they waited for: this is undefined, whatever the others do. -/
theorem C88_fails_removes_itself {σ : Type} (p : Listeners σ) (fuel : Nat) (s : Sets) (a : Nat) (ha : s.events.head? = some a) (st st1 st2 : σ) (e e1 : EventData) (cs1 cs2 : List Change) (s1 : Sets)
    (h1 : p.events.modify a st e = .ok (st1, e1, cs1)) (hs1 : s.applyAll cs1 = .ok s1) (h2 : p.events.process a st1 e1 = .ok (st2, cs2)) (hr : Change.removeEvent a ∈ cs2) :
    (p.tell (fuel + 1) s st (.event e)).2.map (fun _ => ()) = .error .ub := by
  unfold Listeners.tell
  simp only [ha, visit, h1]
  split
  · rfl
  · simp only [hs1, h2, if_pos hr]
    rfl

/-- The same for listeners that remove themselves when they may modify the event. -/
theorem C88_fails_removes_itself_early {σ : Type} (p : Listeners σ) (fuel : Nat) (s : Sets) (a : Nat) (ha : s.events.head? = some a) (st st1 : σ) (e e1 : EventData) (cs1 : List Change)
    (h1 : p.events.modify a st e = .ok (st1, e1, cs1)) (hr : Change.removeEvent a ∈ cs1) :
    p.tell (fuel + 1) s st (.event e) = ([(a, true, .event e)], .error .ub) := by
  unfold Listeners.tell
  simp only [ha, visit, h1, if_pos hr]

/-- **C88** for listeners that change who is registered while they process an event: those with greater addresses that are registered now are called with it, and those that have been removed are not; one with a smaller
address is not called with this event any more. -/
theorem C88_changes_at_once {σ : Type} (p : Listeners σ) (fuel : Nat) (s s1 s2 : Sets) (a : Nat) (ha : s.events.head? = some a) (st st1 st2 : σ) (e e1 : EventData) (cs1 cs2 : List Change)
    (h1 : p.events.modify a st e = .ok (st1, e1, cs1)) (hn1 : Change.removeEvent a ∉ cs1) (hs1 : s.applyAll cs1 = .ok s1)
    (h2 : p.events.process a st1 e1 = .ok (st2, cs2)) (hn2 : Change.removeEvent a ∉ cs2) (hs2 : s1.applyAll cs2 = .ok s2)
    (hq : ∀ b st x, p.events.modify b st x = .ok (st, x, []) ∨ b = a) (hp : ∀ b st x, p.events.process b st x = .ok (st, []) ∨ b = a)
    (hsorted : s2.events.Pairwise (· < ·)) (hf : s2.events.length ≤ fuel) :
    p.tell (fuel + 1) s st (.event e) = ((a, true, .event e) :: (a, false, .event e1) ::
      (s2.events.filter (a < ·)).flatMap (fun b => [(b, true, .event e1), (b, false, .event e1)]), .ok (s2, st2)) := by
  have key : ∀ (l : List Nat) (n : Nat), l.length ≤ n → (∀ x ∈ l, a < x) → ∀ pre, s2.events = pre ++ l →
      visit Delivery.event Sets.events .removeEvent p.events n l.head? s2 st2 e1 = (l.flatMap (fun b => [(b, true, Delivery.event e1), (b, false, Delivery.event e1)]), .ok (s2, st2)) := by
    intro l
    induction l with
    | nil => intro n _ _ pre _; cases n <;> rfl
    | cons b l ih =>
      intro n hn hl pre hpre
      cases n with
      | zero => simp at hn
      | succ n =>
        have hab : b ≠ a := Nat.ne_of_gt (hl b (List.mem_cons_self ..))
        have m := (hq b st2 e1).resolve_right hab
        have q := (hp b st2 e1).resolve_right hab
        have hfind : s2.events.find? (b < ·) = l.head? := by
          rw [hpre] at hsorted ⊢
          rw [List.pairwise_append] at hsorted
          obtain ⟨-, hl2, hpl⟩ := hsorted
          rw [List.find?_append, List.find?_eq_none.2 (fun x hx => by have := hpl x hx b (List.mem_cons_self ..); simp; omega)]
          rw [List.pairwise_cons] at hl2
          cases l with
          | nil => simp
          | cons c l => simp [hl2.1 c (List.mem_cons_self ..)]
        simp only [List.head?_cons, visit, m, q, List.not_mem_nil, if_false, Sets.applyAll, hfind]
        rw [ih n (by simpa using hn) (fun x hx => hl x (List.mem_cons_of_mem _ hx)) (pre ++ [b]) (by simp [hpre])]
        simp
  unfold Listeners.tell
  simp only [ha, visit, h1, if_neg hn1, hs1, h2, if_neg hn2, hs2]
  have hsplit : ∀ l : List Nat, l.Pairwise (· < ·) → ∃ pre, l = pre ++ l.filter (a < ·) := by
    intro l hl
    induction l with
    | nil => exact ⟨[], rfl⟩
    | cons b l ih =>
      rw [List.pairwise_cons] at hl
      by_cases hb : a < b
      · refine ⟨[], ?_⟩
        rw [List.nil_append, List.filter_cons_of_pos (by simpa using hb), List.filter_eq_self.2 (fun x hx => by have := hl.1 x hx; simp; omega)]
      · obtain ⟨pre, hpre⟩ := ih hl.2
        refine ⟨b :: pre, ?_⟩
        rw [List.filter_cons_of_neg (by simpa using hb), List.cons_append, ← hpre]
  obtain ⟨pre, hpre⟩ := hsplit s2.events hsorted
  have hhead : s2.events.find? (a < ·) = (s2.events.filter (a < ·)).head? := by rw [List.head?_filter]
  rw [hhead, key _ fuel (Nat.le_trans (List.length_filter_le ..) hf) (fun x hx => by simpa using (List.mem_filter.1 hx).2) pre hpre]

/-! ## Cases -/

/-- A program with two listeners of events, one of which adds 100 to the number of each event, and one of run headers; all note the numbers that they process. -/
def noting : Quiet (List (Nat × W32)) EventData × Quiet (List (Nat × W32)) RunHeader :=
  (⟨fun a st e => (st, if a = 7 then ({ e.1 with evt := e.1.evt + 100 }, e.2) else e), fun a st e => st ++ [(a, e.1.evt)]⟩, ⟨fun _ st h => (st, h), fun a st h => st ++ [(a, h.run)]⟩)

/-- The file of C85 with a run header and three events is read; the listener at address 7 is called before that at address 9. -/
example : ((({ mt := (Reader.openFiles sampleCfg false [(str "f", twice)]).2 } : SioReader).readStream sampleCfg ⟨noting.1.listener, noting.2.listener⟩ 2 ⟨[7, 9], [8]⟩ [] intMax).2.toOption.map (·.2)) =
      some [(8, 1), (7, 100), (9, 100), (7, 101), (9, 101), (7, 101), (9, 101)] ∧
    Sets.applyAll {} [.addEvent 9, .addEvent 5, .addRun 8, .addEvent 7, .addEvent 9, .removeEvent 5] = .ok ⟨[7, 9], [8]⟩ := by
  decide +kernel

/-- A listener that registers others and removes those before it, which is all right: only those with a greater address are called for the same event. -/
example : ((⟨⟨fun _ st e => .ok (st, e, []), fun a st _ => .ok (st ++ [a], if a = 5 then [.addEvent 6, .addEvent 3, .removeEvent 2, .removeEvent 8] else [])⟩, ⟨fun _ st h => .ok (st, h, []), fun _ st _ => .ok (st, [])⟩⟩ : Listeners (List Nat)).tell
      9 ⟨[2, 5, 7, 8], []⟩ [] (.event ({}, []))).2.toOption = some (⟨[3, 5, 6, 7], []⟩, [2, 5, 6, 7]) := by
  decide +kernel

/-- The hypotheses of `C88_fails_removes_itself`. -/
example : ((⟨⟨fun _ st e => .ok (st, e, []), fun a st _ => .ok (st ++ [a], [.removeEvent a])⟩, ⟨fun _ st h => .ok (st, h, []), fun _ st _ => .ok (st, [])⟩⟩ : Listeners (List Nat)).tell
      9 ⟨[2, 5], []⟩ [] (.event ({}, []))).2.map (fun _ => ()) = .error .ub :=
  C88_fails_removes_itself _ 8 ⟨[2, 5], []⟩ 2 rfl [] [] [2] _ _ [] _ _ rfl rfl rfl (by simp)

/-- The listener at 5 removes that at 7 and registers those at 3 and 9; of these only the last is called with the same event. The hypotheses of `C88_changes_at_once` are met. -/
example (e : EventData) : (⟨⟨fun _ st x => .ok (st, x, []), fun a st _ => .ok (st, if a = 5 then [.removeEvent 7, .addEvent 3, .addEvent 9] else [])⟩,
      ⟨fun _ st x => .ok (st, x, []), fun _ st _ => .ok (st, [])⟩⟩ : Listeners Unit).tell 4 ⟨[5, 7], []⟩ () (.event e) =
    ([(5, true, .event e), (5, false, .event e), (9, true, .event e), (9, false, .event e)], .ok (⟨[3, 5, 9], []⟩, ())) :=
  C88_changes_at_once _ 3 _ _ ⟨[3, 5, 9], []⟩ 5 rfl () () () e e [] [.removeEvent 7, .addEvent 3, .addEvent 9] rfl (by simp) rfl rfl (by decide) rfl (fun _ _ _ => .inl rfl)
    (fun b _ _ => by by_cases h : b = 5 <;> simp [h]) (by decide) (by decide)

end Props
