import Verif.Spec.Warning
import Verif.Util.PidLemmas
/-
C83: warnings.
-/
namespace Props
open Sio Util Spec Lcio

/-- What is known about a warning after some calls. -/
def cfgAfter (id : Str) (cs : List WarnCall) : Option WarnCfg :=
  match registration id cs with
  | some (txt, max) => some { txt, max, counter := if (timesCalled id cs : Int) ≤ max then max - timesCalled id cs else min max 0 }
  | none => if timesCalled id cs = 0 then none else some {}

theorem registration_append (id : Str) : ∀ (a b : List WarnCall), registration id (a ++ b) = (registration id a).or (registration id b) := by
  intro a
  induction a with
  | nil => intro b; rfl
  | cons c a ih =>
    intro b
    cases c with
    | print i => exact ih b
    | register i t m =>
      rw [List.cons_append, registration, registration]
      split
      · rfl
      · exact ih b

theorem timesCalled_append (id : Str) : ∀ (a b : List WarnCall), timesCalled id (a ++ b) = timesCalled id a + timesCalled id b := by
  intro a
  induction a with
  | nil => intro b; simp [timesCalled]
  | cons c a ih =>
    intro b
    cases c with
    | print i => rw [List.cons_append, timesCalled, timesCalled, ih]; omega
    | register i t m => rw [List.cons_append, timesCalled, timesCalled, ih]

theorem calls_snoc : ∀ (cs : List WarnCall) (c : WarnCall) (w : Warnings), w.calls (cs ++ [c]) = ((w.calls cs).call c).2 := by
  intro cs
  induction cs with
  | nil => intro c w; rfl
  | cons x cs ih => intro c w; rw [List.cons_append, Warnings.calls, Warnings.calls, ih]

theorem calls_append : ∀ (a b : List WarnCall) (w : Warnings), w.calls (a ++ b) = (w.calls a).calls b := by
  intro a
  induction a with
  | nil => intro b w; rfl
  | cons x a ih => intro b w; rw [List.cons_append, Warnings.calls, Warnings.calls, ih]

theorem snoc_induction {α : Type} {P : List α → Prop} (h0 : P []) (h1 : ∀ l a, P l → P (l ++ [a])) (l : List α) : P l := by
  rw [← List.reverse_reverse l]
  induction l.reverse with
  | nil => exact h0
  | cons a l ih => rw [List.reverse_cons]; exact h1 _ _ ih

theorem timesCalled_pos (id : Str) (cs : List WarnCall) (h : timesCalled id cs ≠ 0) : ∃ before after, cs = before ++ .print id :: after := by
  induction cs with
  | nil => exact absurd rfl h
  | cons c cs ih =>
    cases c with
    | print i =>
      by_cases hi : i = id
      · subst hi; exact ⟨[], cs, rfl⟩
      · rw [timesCalled, if_neg hi, Nat.zero_add] at h
        obtain ⟨b, a, rfl⟩ := ih h
        exact ⟨.print i :: b, a, rfl⟩
    | register i t m =>
      rw [timesCalled] at h
      obtain ⟨b, a, rfl⟩ := ih h
      exact ⟨.register i t m :: b, a, rfl⟩

theorem registeredFirst_snoc (cs : List WarnCall) (c : WarnCall) (h : RegisteredFirst (cs ++ [c])) : RegisteredFirst cs := by
  rintro b id a rfl
  have := h b id (a ++ [c]) (by simp)
  rw [registration_append] at this
  cases hr : registration id a with
  | none => rfl
  | some x => rw [hr] at this; cases this

theorem warn_print (w : Warnings) (id : Str) (x : Str) (c : Option WarnCfg) (hc : omFind strLt id w = c) :
    (w.print id).1 = (if (c.getD {}).counter ≤ 0 then [] else warnText (c.getD {})) ∧
    omFind strLt x (w.print id).2 = if x = id then some (if (c.getD {}).counter ≤ 0 then c.getD {} else { c.getD {} with counter := (c.getD {}).counter - 1 }) else omFind strLt x w := by
  subst hc
  unfold Warnings.print
  cases hf : omFind strLt id w with
  | none =>
    simp only [find_assign_str, if_true, Option.getD_some, Option.getD_none]
    rw [if_pos (show ({} : WarnCfg).counter ≤ 0 by decide), if_pos (show ({} : WarnCfg).counter ≤ 0 by decide), if_pos (show ({} : WarnCfg).counter ≤ 0 by decide)]
    refine ⟨rfl, ?_⟩
    rw [find_assign_str]
  | some c =>
    simp only [hf, Option.getD_some]
    by_cases h : c.counter ≤ 0
    · rw [if_pos h, if_pos h, if_pos h]
      refine ⟨rfl, ?_⟩
      by_cases hx : x = id
      · rw [if_pos hx, hx, hf]
      · rw [if_neg hx]
    · rw [if_neg h, if_neg h, if_neg h]
      refine ⟨rfl, ?_⟩
      rw [find_assign_str]

theorem warn_state (cs : List WarnCall) : RegisteredFirst cs → ∀ id, omFind strLt id (Warnings.calls [] cs) = cfgAfter id cs := by
  refine snoc_induction (P := fun cs => RegisteredFirst cs → ∀ id, omFind strLt id (Warnings.calls [] cs) = cfgAfter id cs) ?_ ?_ cs
  · intro _ id; rfl
  · intro cs c ih hr id
    have ih := ih (registeredFirst_snoc cs c hr)
    rw [calls_snoc]
    cases c with
    | register i t m =>
      simp only [Warnings.call, Warnings.register, ih i]
      have hreg : registration id (cs ++ [.register i t m]) = (registration id cs).or (if i = id then some (t, m) else none) := by
        rw [registration_append]; rfl
      have htim : timesCalled id (cs ++ [.register i t m]) = timesCalled id cs := by rw [timesCalled_append]; rfl
      by_cases hi : i = id
      · subst hi
        rw [if_pos rfl] at hreg
        cases hg : registration i cs with
        | some x =>
          obtain ⟨t', m'⟩ := x
          have e : cfgAfter i cs = some { txt := t', max := m', counter := if (timesCalled i cs : Int) ≤ m' then m' - timesCalled i cs else min m' 0 } := by unfold cfgAfter; rw [hg]
          simp only [e]
          rw [ih, e]; unfold cfgAfter; rw [hreg, hg, htim]; rfl
        | none =>
          have h0 : timesCalled i cs = 0 := by
            by_cases h0 : timesCalled i cs = 0
            · exact h0
            · obtain ⟨b, a, rfl⟩ := timesCalled_pos i cs h0
              have := hr b i (a ++ [.register i t m]) (by simp)
              rw [registration_append] at this
              cases hb : registration i a with
              | some x => rw [hb] at this; cases this
              | none => rw [hb] at this; simp [registration] at this
          have e : cfgAfter i cs = none := by unfold cfgAfter; rw [hg]; simp [h0]
          simp only [e]
          rw [find_assign_str, if_pos rfl]
          unfold cfgAfter
          rw [hreg, hg, htim, h0]
          simp only [Option.none_or, Option.some.injEq, WarnCfg.mk.injEq, true_and]
          split <;> omega
      · rw [if_neg hi, Option.or_none] at hreg
        have e : cfgAfter id (cs ++ [.register i t m]) = cfgAfter id cs := by unfold cfgAfter; rw [hreg, htim]
        rw [e, ← ih id]
        split
        · rename_i e h; split at h
          · cases h; rfl
          · cases h
        · rename_i h; split at h
          · cases h
          · cases h; rw [find_assign_str, if_neg (Ne.symm hi)]
    | print i =>
      simp only [Warnings.call]
      rw [(warn_print _ i id _ (ih i)).2]
      have hreg : registration id (cs ++ [.print i]) = registration id cs := by
        rw [registration_append]; simp [registration]
      have htim : timesCalled id (cs ++ [.print i]) = timesCalled id cs + if i = id then 1 else 0 := by
        rw [timesCalled_append]; simp [timesCalled]
      by_cases hi : id = i
      · subst hi
        rw [if_pos rfl]
        rw [if_pos rfl] at htim
        unfold cfgAfter
        rw [hreg, htim]
        cases hg : registration id cs with
        | none =>
          simp only
          by_cases h0 : timesCalled id cs = 0 <;> simp [h0]
        | some x =>
          obtain ⟨t, m⟩ := x
          simp only [Option.getD_some, Option.some.injEq]
          have key : ∀ X, X = (if (timesCalled id cs : Int) ≤ m then m - timesCalled id cs else min m 0) →
              (if X ≤ 0 then X else X - 1) = if ((timesCalled id cs + 1 : Nat) : Int) ≤ m then m - ((timesCalled id cs + 1 : Nat) : Int) else min m 0 := by
            intro X hX
            by_cases h1 : (timesCalled id cs : Int) ≤ m
            · rw [if_pos h1] at hX
              by_cases h2 : X ≤ 0
              · rw [if_pos h2, if_neg (by omega)]; omega
              · rw [if_neg h2, if_pos (by omega)]; omega
            · rw [if_neg h1] at hX
              rw [if_pos (by omega), if_neg (by omega), hX]
          have key := key _ rfl
          generalize (if (timesCalled id cs : Int) ≤ m then m - timesCalled id cs else min m 0) = X at key ⊢
          rw [← key]
          by_cases h : X ≤ 0
          · rw [if_pos h, if_pos h]
          · rw [if_neg h, if_neg h]
      · rw [if_neg hi, ih id]
        rw [if_neg (Ne.symm hi), Nat.add_zero] at htim
        unfold cfgAfter; rw [hreg, htim]

theorem warnText_eq (c : WarnCfg) : warnText c = warningText c.txt c.max (c.counter - 1) := by
  unfold warnText warningText endl warnRule1 warnRule2
  by_cases h : c.counter > 1
  · rw [if_pos h, if_pos (by omega)]
    simp only [List.append_assoc, List.cons_append, List.nil_append]
  · rw [if_neg h, if_neg (by omega)]
    simp only [List.append_assoc, List.cons_append, List.nil_append]

/-- **C83**: how often a warning is printed. Whatever calls came before, if no warning was called for before it was registered: when the program calls for a warning registered to be printed
`max` times at most, it is printed if it was called for less than `max` times before, and then with the right numbers; otherwise, and if it was never registered, nothing is
printed. No call for a warning throws. -/
theorem C83_printed_partial (cs : List WarnCall) (id : Str) (h : RegisteredFirst (builtinWarnings ++ cs)) :
    let w := Warnings.new.calls cs
    let n := timesCalled id (builtinWarnings ++ cs)
    (w.call (.print id)).1 = .ok (
      match registration id (builtinWarnings ++ cs) with
      | none => []
      | some (txt, max) => if (n : Int) < max then warningText txt max (max - n - 1) else []) := by
  intro w n
  have hw : w = Warnings.calls [] (builtinWarnings ++ cs) := (calls_append builtinWarnings cs []).symm
  have hf := warn_state (builtinWarnings ++ cs) h id
  rw [← hw] at hf
  show Except.ok (w.print id).1 = _
  rw [(warn_print w id id _ hf).1]
  unfold cfgAfter
  cases hg : registration id (builtinWarnings ++ cs) with
  | none =>
    simp only
    split <;> rw [if_pos (by decide)]
  | some x =>
    obtain ⟨t, m⟩ := x
    simp only [Option.getD_some]
    show Except.ok (if (if (n : Int) ≤ m then m - n else min m 0) ≤ 0 then _ else _) = _
    by_cases hn : (n : Int) < m
    · rw [if_pos hn, if_neg (by rw [if_pos (by omega)]; omega)]
      show Except.ok (warnText { txt := t, max := m, counter := if (n : Int) ≤ m then m - n else min m 0 }) = _
      rw [if_pos (by omega), warnText_eq]
    · rw [if_neg hn, if_pos (by split <;> omega)]

/-- **C83**: registering. A warning can be registered once only: a call throws `Exception`, and changes nothing, if and only if the warning is registered already. -/
theorem C83_registers_partial (cs : List WarnCall) (id txt : Str) (max : Int) (h : RegisteredFirst (builtinWarnings ++ cs ++ [.register id txt max])) :
    let w := Warnings.new.calls cs
    ((w.call (.register id txt max)).1 = .error .lcException ↔ registration id (builtinWarnings ++ cs) ≠ none) ∧
    ((w.call (.register id txt max)).1 ≠ .error .lcException → (w.call (.register id txt max)).1 = .ok []) ∧
    (registration id (builtinWarnings ++ cs) ≠ none → (w.call (.register id txt max)).2 = w) := by
  intro w
  have hw : w = Warnings.calls [] (builtinWarnings ++ cs) := (calls_append builtinWarnings cs []).symm
  have hf := warn_state (builtinWarnings ++ cs) (registeredFirst_snoc _ _ h) id
  rw [← hw] at hf
  simp only [Warnings.call, Warnings.register, hf]
  unfold cfgAfter
  cases hg : registration id (builtinWarnings ++ cs) with
  | some x =>
    obtain ⟨t, m⟩ := x
    exact ⟨⟨fun _ => by simp, fun _ => rfl⟩, fun h => absurd rfl h, fun _ => rfl⟩
  | none =>
    have h0 : timesCalled id (builtinWarnings ++ cs) = 0 := by
      by_cases h0 : timesCalled id (builtinWarnings ++ cs) = 0
      · exact h0
      · obtain ⟨b, a, e⟩ := timesCalled_pos id _ h0
        have := h b id (a ++ [.register id txt max]) (by rw [e]; simp)
        rw [registration_append] at this
        cases hb : registration id a with
        | some x => rw [hb] at this; cases this
        | none => rw [hb] at this; simp [registration] at this
    rw [h0]
    exact ⟨⟨(fun h => nomatch h), fun h => absurd rfl h⟩, fun _ => rfl, fun h => absurd rfl h⟩

theorem warnEnd_eq (w : Warnings) (first : Bool) : warnEnd w first =
    (if first ∧ w.filter (fun e => decide (e.2.max ≠ e.2.counter)) ≠ [] then
      endl ++ endl ++ endl ++ warnRule3 ++ endl ++ str "+++ FOLLOWING WARNINGS WERE FOUND:" ++ endl ++ warnRule3 else []) ++
    ((w.filter fun e => decide (e.2.max ≠ e.2.counter)).map fun e => endl ++ endl ++ e.2.txt).flatten := by
  induction w generalizing first with
  | nil => simp [warnEnd]
  | cons e w ih =>
    obtain ⟨id, c⟩ := e
    rw [warnEnd]
    by_cases h : c.max ≠ c.counter
    · rw [if_pos h, ih false, List.filter_cons_of_pos (by simpa using h)]
      cases first <;> simp
    · rw [if_neg h, ih first, List.filter_cons_of_neg (by simpa using h)]

theorem calls_ordered (cs : List WarnCall) : ∀ w : Warnings, Ordered strLt w → Ordered strLt (w.calls cs) := by
  induction cs with
  | nil => intro w h; exact h
  | cons c cs ih =>
    intro w h
    refine ih _ ?_
    cases c with
    | register i t m =>
      simp only [Warnings.call, Warnings.register]
      cases omFind strLt i w with
      | some _ => exact h
      | none => exact (omAssign_keys strWeak _ _ _ h).1
    | print i =>
      simp only [Warnings.call, Warnings.print]
      cases omFind strLt i w with
      | some _ =>
        simp only
        split
        · exact h
        · exact (omAssign_keys strWeak _ _ _ h).1
      | none =>
        simp only
        split
        · exact (omAssign_keys strWeak _ _ _ h).1
        · exact (omAssign_keys strWeak _ _ _ (omAssign_keys strWeak _ _ _ h).1).1

/-- **C83**: the end of the program. The texts of all warnings that were printed before are printed once more, in the order of their names, after a headline; if there are none, there is only an
empty line. -/
theorem C83_end_partial (cs : List WarnCall) (h : RegisteredFirst (builtinWarnings ++ cs)) :
    ∃ found : List (Str × Str), found.Pairwise (fun a b => strLt a.1 b.1 = true) ∧
      (∀ id txt, (id, txt) ∈ found ↔ ∃ max, registration id (builtinWarnings ++ cs) = some (txt, max) ∧ 0 < max ∧ 0 < timesCalled id (builtinWarnings ++ cs)) ∧
      (Warnings.new.calls cs).destroy =
        (if found ≠ [] then endl ++ endl ++ endl ++ warnRule3 ++ endl ++ str "+++ FOLLOWING WARNINGS WERE FOUND:" ++ endl ++ warnRule3 else []) ++
        (found.map fun e => endl ++ endl ++ e.2).flatten ++ endl ++ endl := by
  have hw : Warnings.new.calls cs = Warnings.calls [] (builtinWarnings ++ cs) := (calls_append builtinWarnings cs []).symm
  rw [hw]
  have hf := warn_state (builtinWarnings ++ cs) h
  have ho : Ordered strLt (Warnings.calls [] (builtinWarnings ++ cs)) := calls_ordered _ _ List.Pairwise.nil
  generalize Warnings.calls [] (builtinWarnings ++ cs) = w at hf ho
  refine ⟨(w.filter fun e => decide (e.2.max ≠ e.2.counter)).map fun e => (e.1, e.2.txt), ?_, ?_, ?_⟩
  · rw [List.pairwise_map]
    exact List.Pairwise.filter _ ho
  · intro id txt
    rw [List.mem_map]
    constructor
    · rintro ⟨⟨i, c⟩, hm, e⟩
      cases e
      rw [List.mem_filter] at hm
      have := omFind_mem strWeak w ho _ hm.1
      simp only at this
      rw [hf] at this
      unfold cfgAfter at this
      have hne := of_decide_eq_true hm.2
      simp only at hne
      cases hg : registration i (builtinWarnings ++ cs) with
      | none =>
        rw [hg] at this
        simp only at this
        split at this
        · cases this
        · cases this; exact absurd rfl hne
      | some x =>
        obtain ⟨t, m⟩ := x
        rw [hg] at this
        simp only [Option.some.injEq] at this
        subst this
        refine ⟨m, rfl, ?_⟩
        show 0 < m ∧ 0 < timesCalled i (builtinWarnings ++ cs)
        simp only at hne
        by_cases hle : (timesCalled i (builtinWarnings ++ cs) : Int) ≤ m
        · rw [if_pos hle] at hne; omega
        · rw [if_neg hle] at hne; omega
    · rintro ⟨m, hg, hm, ht⟩
      have hfid := hf id
      unfold cfgAfter at hfid
      rw [hg] at hfid
      simp only at hfid
      refine ⟨_, List.mem_filter.2 ⟨mem_of_find_str hfid, ?_⟩, rfl⟩
      simp only [ne_eq, decide_eq_true_eq]
      split <;> omega
  · unfold Warnings.destroy
    rw [warnEnd_eq, List.map_map]
    by_cases hx : (w.filter fun e => decide (e.2.max ≠ e.2.counter)) = []
    · rw [hx]; simp
    · rw [if_pos ⟨rfl, hx⟩, if_pos (by rw [ne_eq, List.map_eq_nil_iff]; exact hx)]
      rfl

theorem rf_register (i t : Str) (m : Int) (cs : List WarnCall) : RegisteredFirst (.register i t m :: cs) ↔ RegisteredFirst cs := by
  constructor
  · rintro h b id a rfl; exact h (.register i t m :: b) id a rfl
  · intro h b id a e
    cases b with
    | nil => cases e
    | cons x b => simp only [List.cons_append, List.cons.injEq] at e; exact h b id a e.2

theorem rf_print (i : Str) (cs : List WarnCall) : RegisteredFirst (.print i :: cs) ↔ registration i cs = none ∧ RegisteredFirst cs := by
  constructor
  · intro h
    refine ⟨h [] i cs rfl, ?_⟩
    rintro b id a rfl; exact h (.print i :: b) id a rfl
  · rintro ⟨h0, h⟩ b id a e
    cases b with
    | nil => simp only [List.nil_append, List.cons.injEq, WarnCall.print.injEq] at e; rw [← e.1, ← e.2]; exact h0
    | cons x b => simp only [List.cons_append, List.cons.injEq] at e; exact h b id a e.2

/-- Calls as in the theorems: a new warning, to be printed twice at most, called for three times, and one of the constructor's. -/
def warnSample : List WarnCall :=
  [.register (str "A") (str "aaa") 2, .print (str "A"), .print (str "TRACKERHIT_DEPRECATED_SETDEDX"), .print (str "A"), .print (str "A"), .print (str "unknown")]
example : RegisteredFirst (builtinWarnings ++ warnSample) := by
  simp only [builtinWarnings, warnSample, List.cons_append, List.nil_append, rf_register, rf_print]
  exact ⟨by decide +kernel, by decide +kernel, by decide +kernel, by decide +kernel, by decide +kernel, fun b id a e => by simp at e⟩
example : registration (str "A") (builtinWarnings ++ warnSample) = some (str "aaa", 2) ∧ timesCalled (str "A") (builtinWarnings ++ warnSample) = 3 := by decide +kernel

/-- **C83** fails for warnings that are called for before they are registered: they cannot be registered any more, and are never printed. -/
theorem C83_fails_if_called_first : ∃ w : Warnings, w = Warnings.new.calls [.print (str "A")] ∧ registration (str "A") (builtinWarnings ++ [.print (str "A")]) = none ∧
    (w.call (.register (str "A") (str "aaa") 2)).1 = .error .lcException ∧
    ((w.call (.register (str "A") (str "aaa") 2)).2.call (.print (str "A"))).1 = .ok [] := by
  refine ⟨_, rfl, ?_, ?_, ?_⟩ <;> decide +kernel

end Props
