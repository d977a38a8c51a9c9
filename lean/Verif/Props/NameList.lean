import Verif.Lcio.MemoryLemmas
import Verif.Spec.NavRefs
import Verif.Lcio.NameList
/-
C118: programs that go through the names of the collections of an event.
-/
namespace Props
open Sio Lcio Spec

theorem namedCalls_append (e : NamedEvent) (cs ds : List EventCall) : e.calls (cs ++ ds) = (e.calls cs).calls ds := by
  simp only [NamedEvent.calls, List.foldl_append]

theorem named_ev (e : NamedEvent) (cs : List EventCall) : (e.calls cs).ev = (e.ev.calls cs).2 := by
  induction cs generalizing e with
  | nil => rfl
  | cons c cs ih => exact ih (e.call c)

theorem names_kept (e : NamedEvent) (cs : List EventCall) (h : .names ∉ cs) : (e.calls cs).colNames = e.colNames := by
  induction cs generalizing e with
  | nil => rfl
  | cons c cs ih =>
    have := ih (e.call c) (fun h' => h (by simp [h']))
    refine this.trans ?_
    exact if_neg (fun e' => h (by simp [e']))

/-- The loop when the list stays as it is. -/
theorem loop_visits (body : Str → List EventCall) (I : NamedEvent → Prop) (hI : ∀ e n, I e → I (e.calls (body n)))
    (hb : ∀ e n, I e → (e.calls (body n)).colNames = e.colNames) (fuel : Nat) :
    ∀ (e : NamedEvent) (i : Nat), I e → e.colNames.length - i < fuel →
      NamedEvent.forNames body fuel e i = .ok (e.colNames.drop i, e.calls ((e.colNames.drop i).flatMap body)) := by
  induction fuel with
  | zero => intro _ _ _ h; omega
  | succ fuel ih =>
    intro e i he hf
    unfold NamedEvent.forNames
    cases hi : e.colNames[i]? with
    | none =>
      rw [List.drop_eq_nil_of_le (List.getElem?_eq_none_iff.1 hi)]; rfl
    | some n =>
      obtain ⟨hlt, hn⟩ := List.getElem?_eq_some_iff.1 hi
      have := ih (e.calls (body n)) (i + 1) (hI e n he) (by rw [hb e n he]; omega)
      simp only [this, hb e n he, Except.map]
      rw [List.drop_eq_getElem_cons hlt, hn, List.flatMap_cons, namedCalls_append]

/-- **C118** (proved part): a program that goes through the names of an event, after any calls, comes to every name once, whatever it does for each of them, if
it does not ask for the names again. -/
theorem C118_each_once_partial (cs : List EventCall) (body : Str → List EventCall) (hb : ∀ n, .names ∉ body n) (names : List Str)
    (hn : names = (EventObj.calls {} cs).2.getCollectionNames) (fuel : Nat) (hf : names.length < fuel) :
    ∃ e, NamedEvent.forNames body fuel (NamedEvent.calls {} (cs ++ [.names])) 0 = .ok (names, e) ∧
      e.ev = ((EventObj.calls {} cs).2.calls (names.flatMap body)).2 := by
  have hc : (NamedEvent.calls {} (cs ++ [.names])).colNames = names := by
    rw [namedCalls_append, hn, ← named_ev {} cs]; rfl
  have he : (NamedEvent.calls {} (cs ++ [.names])).ev = (EventObj.calls {} cs).2 := by
    rw [namedCalls_append, ← named_ev {} cs]; rfl
  refine ⟨(NamedEvent.calls {} (cs ++ [.names])).calls (names.flatMap body), ?_, ?_⟩
  · exact (loop_visits body (fun _ => True) (fun _ _ _ => trivial) (fun e n _ => names_kept e _ (hb n)) fuel _ 0 trivial (by rw [hc]; omega)).trans (by rw [List.drop_zero, hc])
  · rw [named_ev, he]

/-- A call that adds and removes nothing. -/
def Looks : EventCall → Prop
  | .add .. | .remove _ => False
  | _ => True

theorem look_map (e : NamedEvent) (c : EventCall) (h : Looks c) : (e.call c).ev.colMap = e.ev.colMap := by
  cases c with
  | add => cases h
  | remove => cases h
  | get n => simp only [NamedEvent.call, EventObj.call]; split <;> rfl
  | take n =>
    simp only [NamedEvent.call, EventObj.call, EventObj.takeCollection]
    cases e.ev.getCollection n <;> rfl
  | names => rfl
  | setAccessMode => rfl

theorem looks_keep (cs : List EventCall) (h : ∀ c ∈ cs, Looks c) : ∀ e : NamedEvent, e.colNames = e.ev.getCollectionNames →
    (e.calls cs).colNames = e.colNames ∧ (e.calls cs).colNames = (e.calls cs).ev.getCollectionNames := by
  induction cs with
  | nil => intro e he; exact ⟨rfl, he⟩
  | cons c cs ih =>
    intro e he
    have hm := look_map e c (h c (by simp))
    have hk : (e.call c).colNames = e.colNames := by
      simp only [NamedEvent.call]
      split
      · exact he.symm
      · rfl
    obtain ⟨i1, i2⟩ := ih (fun c hc => h c (by simp [hc])) (e.call c) (by
      rw [hk, he]; simp only [EventObj.getCollectionNames, hm])
    exact ⟨i1.trans hk, i2⟩

/-- **C118** (proved part): the same, if it only looks at collections and takes them, also if it asks for the names. -/
theorem C118_looking_partial (cs : List EventCall) (body : Str → List EventCall) (hb : ∀ n, ∀ c ∈ body n, Looks c) (names : List Str)
    (hn : names = (EventObj.calls {} cs).2.getCollectionNames) (fuel : Nat) (hf : names.length < fuel) :
    ∃ e, NamedEvent.forNames body fuel (NamedEvent.calls {} (cs ++ [.names])) 0 = .ok (names, e) ∧
      e.ev = ((EventObj.calls {} cs).2.calls (names.flatMap body)).2 := by
  have he : (NamedEvent.calls {} (cs ++ [.names])).ev = (EventObj.calls {} cs).2 := by
    rw [namedCalls_append, ← named_ev {} cs]; rfl
  have hc : (NamedEvent.calls {} (cs ++ [.names])).colNames = names := by
    rw [namedCalls_append, hn, ← named_ev {} cs]; rfl
  refine ⟨(NamedEvent.calls {} (cs ++ [.names])).calls (names.flatMap body), ?_, ?_⟩
  · exact (loop_visits body (fun e => e.colNames = e.ev.getCollectionNames) (fun e n h => (looks_keep _ (hb n) e h).2) (fun e n h => (looks_keep _ (hb n) e h).1)
      fuel _ 0 (by rw [hc, he, hn]) (by rw [hc]; omega)).trans (by rw [List.drop_zero, hc])
  · rw [named_ev, he]

theorem remove_all (p : Str → Bool) (l : List Str) : ∀ e : EventObj, e.readOnly = false →
    (e.calls (l.flatMap fun n => if p n then [.remove n] else [])).2.readOnly = false ∧
    ∀ n, omFind strLt n (e.calls (l.flatMap fun n => if p n then [.remove n] else [])).2.colMap = if n ∈ l ∧ p n = true then none else omFind strLt n e.colMap := by
  induction l with
  | nil => intro e h; exact ⟨h, fun n => by simp [EventObj.calls]⟩
  | cons x l ih =>
    intro e h
    rw [List.flatMap_cons]
    cases hp : p x with
    | false =>
      obtain ⟨i1, i2⟩ := ih e h
      refine ⟨by simpa [hp] using i1, fun n => ?_⟩
      have := i2 n
      simp only [Bool.false_eq_true, if_false, List.nil_append]
      rw [this]
      by_cases hn : n = x
      · subst hn; simp [hp]
      · simp [hn]
    | true =>
      have hr : (e.call (.remove x)).2 = { e with colMap := omErase strLt x e.colMap } := by
        simp [EventObj.call, EventObj.removeCollection, h]
      obtain ⟨i1, i2⟩ := ih (e.call (.remove x)).2 (by rw [hr]; exact h)
      simp only [if_true, List.singleton_append, EventObj.calls]
      refine ⟨i1, fun n => ?_⟩
      rw [i2 n, hr]
      simp only [omFind_erase]
      by_cases hn : n = x
      · subst hn; simp [hp]
      · simp [hn]

/-- **C118**: a program that goes through the names of an event that can be changed and removes the collections it selects removes just these. -/
theorem C118_removes_selected (cs : List EventCall) (p : Str → Bool) (hw : (EventObj.calls {} cs).2.readOnly = false) (fuel : Nat)
    (hf : (EventObj.calls {} cs).2.getCollectionNames.length < fuel) :
    ∃ visited e, NamedEvent.forNames (fun n => if p n then [.remove n] else []) fuel (NamedEvent.calls {} (cs ++ [.names])) 0 = .ok (visited, e) ∧
      ∀ n, e.ev.getCollection n = if p n then .error .notAvailable else (EventObj.calls {} cs).2.getCollection n := by
  obtain ⟨e, h1, h2⟩ := C118_each_once_partial cs (fun n => if p n then [.remove n] else []) (fun n => by split <;> simp) _ rfl fuel hf
  refine ⟨_, e, h1, fun n => ?_⟩
  have := (remove_all p (EventObj.calls {} cs).2.getCollectionNames (EventObj.calls {} cs).2 hw).2 n
  rw [← h2] at this
  simp only [EventObj.getCollection, this]
  by_cases hp : p n = true
  · by_cases hm : n ∈ (EventObj.calls {} cs).2.getCollectionNames
    · rw [if_pos ⟨hm, hp⟩, if_pos hp]
    · rw [if_neg (fun h => hm h.1), if_pos hp, (omFind_none_str n _).2 hm]
  · rw [if_neg (fun h => hp h.2), if_neg hp]

theorem eventCall_ordered (e : EventObj) (c : EventCall) (h : Ordered strLt e.colMap) : Ordered strLt (e.call c).2.colMap := by
  cases c with
  | add col n =>
    simp only [EventObj.call, EventObj.addCollection]
    split
    · exact h
    · rename_i e' h'
      repeat' split at h'
      all_goals first | cases h'; done | (cases h'; exact ordered_assign _ _ _ h)
  | get n => simp only [EventObj.call]; split <;> exact h
  | take n =>
    simp only [EventObj.call, EventObj.takeCollection]
    cases e.getCollection n <;> exact h
  | remove n =>
    simp only [EventObj.call, EventObj.removeCollection]
    by_cases hr : e.readOnly = true
    · simp only [hr, if_true]; exact h
    · simp only [hr, Bool.false_eq_true, if_false]; exact ordered_erase _ _ h
  | names => exact h
  | setAccessMode => exact h

theorem eventCalls_ordered (cs : List EventCall) : ∀ e : EventObj, Ordered strLt e.colMap → Ordered strLt (e.calls cs).2.colMap := by
  induction cs with
  | nil => intro e h; exact h
  | cons c cs ih => intro e h; exact ih _ (eventCall_ordered e c h)

theorem names_nodup (m : List (Str × Nat)) (h : Ordered strLt m) : (m.map (·.1)).Nodup := by
  unfold List.Nodup
  rw [List.pairwise_map]
  exact h.imp fun hlt e => by rw [e, strWeak.irrefl] at hlt; cases hlt

theorem names_erase (m : List (Str × Nat)) (n : Str) : (omErase strLt n m).map (·.1) = (m.map (·.1)).filter (· ≠ n) := by
  unfold omErase
  rw [List.filter_map]
  congr 1
  apply List.filter_congr
  intro x _
  simp only [Function.comp, ne_eq]
  by_cases h : x.1 = n
  · simp [h, (eqv_str n n).2 rfl]
  · have : eqv strLt x.1 n = false := by
      cases he : eqv strLt x.1 n with
      | false => rfl
      | true => exact absurd ((eqv_str _ _).1 he) h
    simp [h, this]

theorem loop_asking (fuel : Nat) : ∀ (e : NamedEvent) (pre rest : List Str), e.ev.readOnly = false → Ordered strLt e.ev.colMap →
    e.colNames = e.ev.getCollectionNames → e.colNames = pre ++ rest → rest.length < fuel →
    ∃ visited e', NamedEvent.forNames (fun n => [.remove n, .names]) fuel e pre.length = .ok (visited, e') ∧
      e'.ev.getCollectionNames = pre ++ oddPositions rest := by
  induction fuel with
  | zero => intro _ _ _ _ _ _ _ h; omega
  | succ fuel ih =>
    intro e pre rest hw ho hn hE hf
    unfold NamedEvent.forNames
    cases rest with
    | nil =>
      rw [hE, List.append_nil, List.getElem?_eq_none (Nat.le_refl _)]
      exact ⟨_, _, rfl, by rw [← hn, hE]; rfl⟩
    | cons x rest =>
      rw [hE, List.getElem?_append_right (Nat.le_refl _), Nat.sub_self]
      simp only [List.getElem?_cons_zero]
      have hev : (e.calls [.remove x, .names]).ev = { e.ev with colMap := omErase strLt x e.ev.colMap } := by
        simp [NamedEvent.calls, NamedEvent.call, EventObj.call, EventObj.removeCollection, hw]
      have hc : (e.calls [.remove x, .names]).colNames = (e.calls [.remove x, .names]).ev.getCollectionNames := by
        simp [NamedEvent.calls, NamedEvent.call, EventObj.call]
      have hnames : (e.calls [.remove x, .names]).colNames = pre ++ rest := by
        rw [hc, hev]
        simp only [EventObj.getCollectionNames] at hn ⊢
        have hd := names_nodup _ ho
        rw [names_erase, ← hn, hE]
        rw [← hn, hE] at hd
        obtain ⟨_, d2, d3⟩ := List.nodup_append.1 hd
        obtain ⟨d4, _⟩ := List.nodup_cons.1 d2
        rw [List.filter_append, List.filter_cons_of_neg (by simp), List.filter_eq_self.2, List.filter_eq_self.2]
        · intro y hy
          simp only [ne_eq, decide_eq_true_eq]
          intro e; exact d4 (e ▸ hy)
        · intro y hy
          simp only [ne_eq, decide_eq_true_eq]
          exact d3 y hy x (by simp)
      cases rest with
      | nil =>
        cases fuel with
        | zero => simp at hf
        | succ fuel =>
          unfold NamedEvent.forNames
          rw [hnames, List.append_nil, List.getElem?_eq_none (Nat.le_succ _)]
          exact ⟨_, _, rfl, by rw [← hc, hnames]; simp [oddPositions]⟩
      | cons y rest =>
        obtain ⟨vs, e', r1, r2⟩ := ih (e.calls [.remove x, .names]) (pre ++ [y]) rest (by rw [hev]; exact hw) (by rw [hev]; exact ordered_erase _ _ ho) hc
          (by rw [hnames]; simp) (by simp only [List.length_cons] at hf; omega)
        rw [List.length_append] at r1
        simp only [List.length_singleton] at r1
        exact ⟨_, _, by rw [r1]; rfl, by rw [r2]; simp [oddPositions]⟩

/-- **C118** fails: a program that removes each collection and then does something that asks for the names (writing or printing the event) comes only to every
second name and leaves the other collections in the event. -/
theorem C118_fails_asking (cs : List EventCall) (hw : (EventObj.calls {} cs).2.readOnly = false) (names : List Str)
    (hn : names = (EventObj.calls {} cs).2.getCollectionNames) (h2 : 2 ≤ names.length) (fuel : Nat) (hf : names.length < fuel) :
    ∃ visited e, NamedEvent.forNames (fun n => [.remove n, .names]) fuel (NamedEvent.calls {} (cs ++ [.names])) 0 = .ok (visited, e) ∧
      e.ev.getCollectionNames = oddPositions names ∧ oddPositions names ≠ [] := by
  have he : (NamedEvent.calls {} (cs ++ [.names])).ev = (EventObj.calls {} cs).2 := by
    rw [namedCalls_append, ← named_ev {} cs]; rfl
  have hc : (NamedEvent.calls {} (cs ++ [.names])).colNames = names := by
    rw [namedCalls_append, hn, ← named_ev {} cs]; rfl
  obtain ⟨vs, e, r1, r2⟩ := loop_asking fuel _ [] names (by rw [he]; exact hw) (by rw [he]; exact eventCalls_ordered cs {} List.Pairwise.nil)
    (by rw [hc, he, hn]) hc hf
  refine ⟨vs, e, r1, r2, ?_⟩
  match names, h2 with
  | x :: y :: l, _ => simp [oddPositions]

/-- An event with three collections. -/
def threeCols : List EventCall := [.add 7 (str "Tracks"), .add 8 (str "Hits"), .add 9 (str "Clusters")]

example : (EventObj.calls {} threeCols).2.getCollectionNames = [str "Clusters", str "Hits", str "Tracks"] ∧ (EventObj.calls {} threeCols).2.readOnly = false := by
  decide +kernel

-- adding a collection for each of them
example : (NamedEvent.forNames (fun n => [.add 5 (n ++ str "Copy"), .remove n]) 4 (NamedEvent.calls {} (threeCols ++ [.names])) 0).map
    (fun r => (r.1, r.2.ev.getCollectionNames)) = .ok ([str "Clusters", str "Hits", str "Tracks"], [str "ClustersCopy", str "HitsCopy", str "TracksCopy"]) := by
  decide +kernel

-- removing what begins with H; and removing all, printing the event each time
example : (NamedEvent.forNames (fun n => if n.take 1 == str "H" then [.remove n] else []) 4 (NamedEvent.calls {} (threeCols ++ [.names])) 0).map
      (fun r => r.2.ev.getCollectionNames) = .ok [str "Clusters", str "Tracks"] ∧
    (NamedEvent.forNames (fun n => [.remove n, .names]) 4 (NamedEvent.calls {} (threeCols ++ [.names])) 0).map
      (fun r => (r.1, r.2.ev.getCollectionNames)) = .ok ([str "Clusters", str "Tracks"], [str "Hits"]) := by
  decide +kernel

end Props
