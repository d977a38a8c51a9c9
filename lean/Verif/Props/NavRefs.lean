import Verif.Util.NavRefsLemmas
/-
C117: what programs see in the lists a relation navigator gave them, after further calls.
-/
namespace Props
open Sio Lcio Util Spec

/-- **C117** (proved part): a list that a navigator gave to a program, by any of the four getters after any calls, always shows the relations of the moment,
whatever is called in between, if the last relation it shows is never removed. -/
theorem C117_lists_partial (add : W32 → W32 → W32) (cs : List NavCall) (c : NavCall) (ref : NavRef) (ds : List NavCall)
    (hr : ((RefNavigator.calls add {} cs).call add c).1 = some ref) (hk : ¬ navEmptied add c (relsAfter add [] cs) ds) :
    (((RefNavigator.calls add {} cs).call add c).2.calls add ds).look ref =
      .ok (navShown (navListed (relsAfter add [] (cs ++ ds)) c) c) := by
  have h := ref_calls_hold add ref_new cs
  have hc : relAfter add (relsAfter add [] cs) c = relsAfter add [] cs := by cases c <;> first | rfl | cases hr
  have h1 := ref_call_holds add h c
  rw [hc] at h1
  have hl := ((look_after add c _ ref hr ds h1).2 (fresh_live add _ c ref hr)).1 hk
  rw [look_live add (ref_calls_hold add h1 ds) c _ ref hr hl]
  simp only [relsAfter, List.foldl_append]

/-- **C117** fails: after the last relation it showed was removed, every use of the list is undefined, also when there are relations again. -/
theorem C117_fails_last_removed (add : W32 → W32 → W32) (cs : List NavCall) (c : NavCall) (ref : NavRef) (ds : List NavCall)
    (hr : ((RefNavigator.calls add {} cs).call add c).1 = some ref) (hk : navEmptied add c (relsAfter add [] cs) ds) :
    (((RefNavigator.calls add {} cs).call add c).2.calls add ds).look ref = .error .ub := by
  have h := ref_calls_hold add ref_new cs
  have hc : relAfter add (relsAfter add [] cs) c = relsAfter add [] cs := by cases c <;> first | rfl | cases hr
  have h1 := ref_call_holds add h c
  rw [hc] at h1
  exact look_dead add _ c _ ref hr (((look_after add c _ ref hr ds h1).2 (fresh_live add _ c ref hr)).2 hk)

theorem tos_nodup (R : List Relation) (a : Nat) (hn : (R.map ends).Nodup) : ((R.filter (·.from_ = a)).map (·.to)).Nodup := by
  have h1 := nodup_filter R (·.from_ = a) hn
  have h2 := from_of_filter R a
  generalize R.filter (·.from_ = a) = E at h1 h2
  unfold List.Nodup at h1 ⊢
  rw [List.pairwise_map] at h1 ⊢
  refine h1.imp_of_mem ?_
  intro r s hr hs hne e
  exact hne (by simp only [ends, h2 r hr, h2 s hs, e])

theorem tos_remove (R : List Relation) (a b : Nat) (pre rest : List Nat) (hn : (R.map ends).Nodup) (hE : (R.filter (·.from_ = a)).map (·.to) = pre ++ b :: rest) :
    ((relRemove R a b).filter (·.from_ = a)).map (·.to) = pre ++ rest := by
  have hd := tos_nodup R a hn
  rw [filter_remove, if_pos rfl]
  have h2 := from_of_filter R a
  generalize R.filter (·.from_ = a) = E at hE hd h2
  have : (relRemove E a b).map (·.to) = (E.map (·.to)).filter (· ≠ b) := by
    unfold relRemove
    rw [List.filter_map]
    congr 1
    apply List.filter_congr
    intro r hr
    simp only [Function.comp, ends, h2 r hr, ne_eq, Prod.mk.injEq, true_and]
  rw [this, hE]
  rw [hE] at hd
  obtain ⟨_, d2, d3⟩ := List.nodup_append.1 hd
  obtain ⟨d4, _⟩ := List.nodup_cons.1 d2
  rw [List.filter_append, List.filter_cons_of_neg (by simp), List.filter_eq_self.2, List.filter_eq_self.2]
  · intro x hx
    simp only [ne_eq, decide_eq_true_eq]
    intro e; exact d4 (e ▸ hx)
  · intro x hx
    simp only [ne_eq, decide_eq_true_eq]
    exact d3 x hx b (by simp)

theorem loop_removes (add : W32 → W32 → W32) (a p : Nat) (fuel : Nat) : ∀ (n : RefNavigator) (R : List Relation) (pre rest : List Nat),
    RefNavHolds n R → omFind addrLt a n.map.index = some p → (R.filter (·.from_ = a)).map (·.to) = pre ++ rest → rest.length < fuel →
    (pre = [] → rest.length ≠ 1) →
    ∃ n' R', RefNavigator.removeLoop add ⟨false, false, p⟩ a fuel n pre.length = .ok n' ∧ RefNavHolds n' R' ∧ omFind addrLt a n'.map.index = some p ∧
      (R'.filter (·.from_ = a)).map (·.to) = pre ++ oddPositions rest ∧ R'.filter (·.from_ ≠ a) = R.filter (·.from_ ≠ a) := by
  induction fuel with
  | zero => intro _ _ _ _ _ _ _ h; omega
  | succ fuel ih =>
    intro n R pre rest h hl hE hf h1
    have hlook := look_live add h (.toObjects a) ⟨{ index := [(a, p)] }, {}⟩ ⟨false, false, p⟩
      (by simp [RefNavigator.call, NodeMap.locate, omFind, (eqv_addr a a).2 rfl]) hl
    simp only [navShown, navListed, hE] at hlook
    unfold RefNavigator.removeLoop
    simp only [hlook]
    cases rest with
    | nil =>
      rw [List.append_nil, List.getElem?_eq_none (Nat.le_refl _)]
      exact ⟨n, R, rfl, h, hl, by rw [hE]; rfl, rfl⟩
    | cons b rest =>
      rw [List.getElem?_append_right (Nat.le_refl _), Nat.sub_self]
      simp only [List.getElem?_cons_zero]
      have hE' := tos_remove R a b pre rest h.nodup hE
      have hh := ref_call_holds add h (.remove a b)
      have hne : pre ++ rest ≠ [] := by
        intro e
        obtain ⟨e1, e2⟩ := List.append_eq_nil_iff.1 e
        exact h1 e1 (by rw [e2]; rfl)
      have hl' := (side_keep add h (.toObjects a) (.remove a b)).live a p hl (fun ⟨_, e⟩ => hne (by
        rw [← hE']; exact congrArg (List.map (·.to)) e))
      have hoth : (relRemove R a b).filter (·.from_ ≠ a) = R.filter (·.from_ ≠ a) := by
        unfold relRemove
        rw [List.filter_filter]
        apply List.filter_congr
        intro r _
        by_cases e : r.from_ = a <;> simp [e, ends]
      cases rest with
      | nil =>
        rw [List.append_nil] at hE'
        cases fuel with
        | zero => simp at hf
        | succ fuel =>
          have hlook' := look_live add hh (.toObjects a) ⟨{ index := [(a, p)] }, {}⟩ ⟨false, false, p⟩
            (by simp [RefNavigator.call, NodeMap.locate, omFind, (eqv_addr a a).2 rfl]) hl'
          simp only [navShown, navListed, relAfter, hE'] at hlook'
          unfold RefNavigator.removeLoop
          simp only [hlook']
          rw [List.getElem?_eq_none (Nat.le_succ _)]
          exact ⟨_, relRemove R a b, rfl, hh, hl', by rw [hE']; simp [oddPositions], hoth⟩
      | cons y rest =>
        obtain ⟨n', R', r1, r2, r3, r4, r5⟩ := ih (n.call add (.remove a b)).2 (relRemove R a b) (pre ++ [y]) rest hh hl'
          (by rw [hE']; simp) (by simp only [List.length_cons] at hf; omega) (by intro e; simp at e)
        rw [List.length_append] at r1
        exact ⟨n', R', r1, r2, r3, by rw [r4]; simp [oddPositions], r5.trans hoth⟩

/-- **C117** fails: a program that goes through the list it got from `getRelatedToObjects` and removes each relation it finds there leaves every second one,
if there are at least two. -/
theorem C117_fails_removing_in_loop (add : W32 → W32 → W32) (cs : List NavCall) (a : Nat) (v : NavRef) (fuel : Nat)
    (hr : ((RefNavigator.calls add {} cs).call add (.toObjects a)).1 = some v)
    (E : List Nat) (hE : E = ((relsAfter add [] cs).filter (·.from_ = a)).map (·.to)) (h2 : 2 ≤ E.length) (hf : E.length < fuel) :
    ∃ n, RefNavigator.removeLoop add v a fuel ((RefNavigator.calls add {} cs).call add (.toObjects a)).2 0 = .ok n ∧
      n.look v = .ok (.objects (oddPositions E)) ∧ oddPositions E ≠ [] := by
  have h := ref_calls_hold add ref_new cs
  have h1 := ref_call_holds add h (.toObjects a)
  have hl := fresh_live add _ _ v hr
  have hv : v = ⟨false, false, v.node⟩ := by cases hr; rfl
  rw [hv] at hr ⊢
  obtain ⟨n, R', r1, r2, r3, r4, _⟩ := loop_removes add a v.node fuel _ _ [] E h1 hl (by rw [hE]; rfl) hf (fun _ => by omega)
  refine ⟨n, r1, ?_, ?_⟩
  · rw [look_live add r2 (.toObjects a) _ _ hr r3]
    simp only [navShown, navListed, r4, List.nil_append]
  · match E, h2 with
    | x :: y :: l, _ => simp [oddPositions]

/-- **C117** fails: if there is only one relation, this loop is undefined. -/
theorem C117_fails_removing_the_only_one (add : W32 → W32 → W32) (cs : List NavCall) (a b : Nat) (v : NavRef) (fuel : Nat)
    (hr : ((RefNavigator.calls add {} cs).call add (.toObjects a)).1 = some v)
    (hE : ((relsAfter add [] cs).filter (·.from_ = a)).map (·.to) = [b]) :
    RefNavigator.removeLoop add v a (fuel + 2) ((RefNavigator.calls add {} cs).call add (.toObjects a)).2 0 = .error .ub := by
  have h0 := C117_lists_partial add cs (.toObjects a) v [] hr id
  have h1 := C117_fails_last_removed add cs (.toObjects a) v [.remove a b] hr (by
    refine Or.inl ⟨?_, ?_⟩
    · intro e
      simp only [navListed] at e
      rw [e] at hE; cases hE
    · have := tos_remove _ a b [] [] (ref_calls_hold add ref_new cs).nodup hE
      exact List.map_eq_nil_iff.1 this)
  rw [List.append_nil] at h0
  simp only [navShown, navListed, hE, RefNavigator.calls, List.foldl_nil, List.foldl_cons] at h0 h1
  unfold RefNavigator.removeLoop
  simp only [RefNavigator.calls, h0, List.getElem?_cons_zero]
  unfold RefNavigator.removeLoop
  simp only [h1]

/-- **C117**: a program that copies the list first removes all relations of the object and no others. -/
theorem C117_copied_list (add : W32 → W32 → W32) (cs : List NavCall) (a : Nat) (E : List Nat) (hE : E = ((relsAfter add [] cs).filter (·.from_ = a)).map (·.to))
    (c : NavCall) (ref : NavRef) :
    let n := RefNavigator.calls add {} (cs ++ E.map (NavCall.remove a))
    (n.call add c).1 = some ref → (n.call add c).2.look ref = .ok (navShown (navListed ((relsAfter add [] cs).filter (·.from_ ≠ a)) c) c) := by
  intro n hr
  have := C117_lists_partial add (cs ++ E.map (NavCall.remove a)) c ref [] hr id
  rw [List.append_nil] at this
  refine Eq.trans this ?_
  congr 3
  have hall : ∀ (L : List Nat) (R : List Relation), relsAfter add R (L.map (NavCall.remove a)) = R.filter fun r => !(r.from_ == a && L.contains r.to) := by
    intro L
    induction L with
    | nil =>
      intro R
      simp only [relsAfter, List.map_nil, List.foldl_nil, List.contains_nil, Bool.and_false, Bool.not_false]
      exact (List.filter_eq_self.2 fun _ _ => rfl).symm
    | cons b L ih =>
      intro R
      show relsAfter add (relRemove R a b) (L.map (NavCall.remove a)) = _
      rw [ih, relRemove, List.filter_filter]
      apply List.filter_congr
      intro r _
      by_cases e1 : r.from_ = a <;> by_cases e2 : r.to = b <;> simp [e1, e2, ends]
  have happ : relsAfter add [] (cs ++ E.map (NavCall.remove a)) = relsAfter add (relsAfter add [] cs) (E.map (NavCall.remove a)) := by
    simp only [relsAfter, List.foldl_append]
  rw [happ, hall]
  apply List.filter_congr
  intro r hm
  by_cases e : r.from_ = a
  · have : r.to ∈ E := by
      rw [hE]; exact List.mem_map.2 ⟨r, List.mem_filter.2 ⟨hm, by simpa using e⟩, rfl⟩
    simp [e, this]
  · simp [e]

/-- Relations of the object at 1 with those at 10, 11 and 12, and of the one at 2 with that at 10. -/
def refCalls : List NavCall := [.add 1 10 5, .add 1 11 6, .add 2 10 7, .add 1 12 8]

-- the list of 1 grows and shrinks in the hands of the program
example : ((RefNavigator.calls (fun a b => a + b) {} refCalls).call (fun a b => a + b) (.toObjects 1)).1 = some ⟨false, false, 0⟩ ∧
    ¬ navEmptied (fun a b => a + b) (.toObjects 1) (relsAfter (fun a b => a + b) [] refCalls) [.remove 1 10, .add 1 13 9, .remove 2 10] ∧
    (((RefNavigator.calls (fun a b => a + b) {} refCalls).call (fun a b => a + b) (.toObjects 1)).2.calls (fun a b => a + b)
      [.remove 1 10, .add 1 13 9, .remove 2 10]).look ⟨false, false, 0⟩ = .ok (.objects [11, 12, 13]) := by
  refine ⟨by decide +kernel, ?_, by decide +kernel⟩
  simp only [navEmptied]
  decide +kernel

-- the list of 2 is gone with its only relation
example : ((RefNavigator.calls (fun a b => a + b) {} refCalls).call (fun a b => a + b) (.toWeights 2)).1 = some ⟨false, true, 1⟩ ∧
    navEmptied (fun a b => a + b) (.toWeights 2) (relsAfter (fun a b => a + b) [] refCalls) [.remove 2 10, .add 2 11 1] ∧
    (((RefNavigator.calls (fun a b => a + b) {} refCalls).call (fun a b => a + b) (.toWeights 2)).2.calls (fun a b => a + b)
      [.remove 2 10, .add 2 11 1]).look ⟨false, true, 1⟩ = .error .ub := by
  refine ⟨by decide +kernel, ?_, by decide +kernel⟩
  simp only [navEmptied]
  decide +kernel

-- the loop leaves the second of three
example : ((relsAfter (fun a b => a + b) [] refCalls).filter (·.from_ = 1)).map (·.to) = [10, 11, 12] ∧ oddPositions [10, 11, 12] = [11] ∧
    ((relsAfter (fun a b => a + b) [] refCalls).filter (·.from_ = 2)).map (·.to) = [10] := by decide +kernel

-- after removing through a copy, the object at 10 is related to the one at 2 only
example : navShown (navListed ((relsAfter (fun a b => a + b) [] refCalls).filter (·.from_ ≠ 1)) (.fromObjects 10)) (.fromObjects 10) = .objects [2] := by
  decide +kernel

end Props
