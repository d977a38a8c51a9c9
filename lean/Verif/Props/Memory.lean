import Verif.Lcio.MemoryLemmas
import Verif.Props.Names
/-
C46 (collections of an event), C63 (ownership of collections), C48 (parameters).
-/
namespace Props
open Sio Spec Lcio

/-! ## C46 -/

theorem call_shows (e : EventObj) (v : EventView) (h : Shows e v) (c : EventCall) (hc : ∀ col name, c = .add col name → (0 : Byte) ∉ name) :
    ∃ v', CallSpec v c (e.call c).1 v' ∧ Shows (e.call c).2 v' := by
  cases c with
  | add col name =>
    have hn := (C07_validate_partial name (hc _ _ rfl)).1
    simp only [EventObj.call, EventObj.addCollection]
    by_cases h1 : validate name = true
    · cases h2 : omFind strLt name e.colMap with
      | some x =>
        simp only [h1, Option.isSome_some, Bool.not_true, Bool.false_eq_true, ↓reduceIte]
        refine ⟨v, ⟨?_, fun _ => ⟨rfl, rfl⟩⟩, h⟩
        rintro ⟨_, hh, _⟩
        rw [← h.cols, h2] at hh; cases hh
      | none =>
        by_cases h3 : col = 0
        · simp only [h1, h3, Option.isSome_none, Bool.not_true, Bool.false_eq_true, ↓reduceIte]
          exact ⟨v, ⟨fun hh => (hh.2.2 rfl).elim, fun _ => ⟨rfl, rfl⟩⟩, h⟩
        · simp only [h1, h3, Option.isSome_none, Bool.not_true, Bool.false_eq_true, ↓reduceIte]
          refine ⟨_, ⟨fun _ => ⟨rfl, rfl⟩, fun hh => (hh ⟨hn.1 h1, by rw [← h.cols, h2], h3⟩).elim⟩, ordered_assign _ _ _ h.ordered, ?_, h.readOnly⟩
          intro n
          simp only
          rw [omFind_assign_str, h.cols]
    · simp only [h1, Bool.not_false, ↓reduceIte]
      exact ⟨v, ⟨fun hh => (h1 (hn.2 hh.1)).elim, fun _ => ⟨rfl, rfl⟩⟩, h⟩
  | get name =>
    simp only [EventObj.call, EventObj.getCollection]
    cases h2 : omFind strLt name e.colMap with
    | none =>
      rw [h.cols] at h2
      exact ⟨v, ⟨rfl, fun c hh => (by rw [h2] at hh; cases hh), fun _ => rfl⟩, h⟩
    | some x =>
      rw [h.cols] at h2
      exact ⟨v, ⟨rfl, fun c hh => (by rw [h2] at hh; cases hh; rfl), fun hh => by rw [h2] at hh; cases hh⟩, h⟩
  | take name =>
    simp only [EventObj.call, EventObj.takeCollection, EventObj.getCollection]
    cases h2 : omFind strLt name e.colMap with
    | none =>
      rw [h.cols] at h2
      exact ⟨v, ⟨rfl, fun c hh => (by rw [h2] at hh; cases hh), fun _ => rfl⟩, h⟩
    | some x =>
      rw [h.cols] at h2
      exact ⟨v, ⟨rfl, fun c hh => (by rw [h2] at hh; cases hh; rfl), fun hh => by rw [h2] at hh; cases hh⟩, h.ordered, h.cols, h.readOnly⟩
  | remove name =>
    simp only [EventObj.call, EventObj.removeCollection]
    cases hr : e.readOnly with
    | true =>
      simp only [↓reduceIte]
      exact ⟨v, ⟨fun hh => (by rw [← h.readOnly, hr] at hh; cases hh), fun _ => ⟨rfl, rfl⟩⟩, h⟩
    | false =>
      simp only [Bool.false_eq_true, ↓reduceIte]
      refine ⟨_, ⟨fun _ => ⟨rfl, rfl⟩, fun hh => by rw [← h.readOnly, hr] at hh; cases hh⟩, ordered_erase _ _ h.ordered, ?_, hr ▸ h.readOnly⟩
      intro n
      simp only
      rw [omFind_erase, h.cols]
  | names =>
    refine ⟨v, ⟨rfl, _, rfl, ?_⟩, h⟩
    have := lists_keys _ h.ordered
    simp only [h.cols] at this
    exact this
  | setAccessMode ro => exact ⟨_, ⟨rfl, rfl⟩, h.ordered, h.cols, rfl⟩

theorem calls_show (cs : List EventCall) (e : EventObj) (v : EventView) (h : Shows e v) (hc : ∀ col name, .add col name ∈ cs → (0 : Byte) ∉ name) :
    ∃ v', CallsSpec v cs (e.calls cs).1 v' ∧ Shows (e.calls cs).2 v' := by
  induction cs generalizing e v with
  | nil => exact ⟨v, ⟨rfl, rfl⟩, h⟩
  | cons c cs ih =>
    obtain ⟨v1, h1, h2⟩ := call_shows e v h c fun col name hh => hc col name (by simp [hh])
    obtain ⟨v2, h3, h4⟩ := ih _ v1 h2 fun col name hh => hc col name (by simp [hh])
    exact ⟨v2, ⟨_, _, v1, rfl, h1, h3⟩, h4⟩

/-- **C46**, for collection names without NUL bytes: whatever the sequence of calls on a new event, every call answers and does what it would do on a
finite map from names to collections (`CallSpec`): `addCollection` succeeds exactly for a C identifier that is not in the event and a
collection that is not null, and has no effect otherwise; `getCollection` and `takeCollection` find exactly what was added and not removed;
`removeCollection` throws on a read-only event; the names are listed in lexicographic order. At the end every collection can be retrieved
by its name. What is missing: names with an embedded NUL (`C46_fails_for_nul`). -/
theorem C46_map_partial (cs : List EventCall) (hc : ∀ col name, .add col name ∈ cs → (0 : Byte) ∉ name) :
    ∃ v, CallsSpec .empty cs (EventObj.calls {} cs).1 v ∧
      (∀ n c, v.cols n = some c → (EventObj.calls {} cs).2.getCollection n = .ok c) ∧
      (∀ n, v.cols n = none → (EventObj.calls {} cs).2.getCollection n = .error .notAvailable) := by
  obtain ⟨v, h1, h2⟩ := calls_show cs {} .empty ⟨List.Pairwise.nil, fun _ => rfl, rfl⟩ hc
  refine ⟨v, h1, fun n c hn => ?_, fun n hn => ?_⟩ <;> rw [← h2.cols] at hn <;> simp only [EventObj.getCollection, hn]

/-- **C46** fails for names with an embedded NUL: such a name is no identifier, but the collection is added. -/
theorem C46_fails_for_nul : ∀ junk : List Byte,
    ¬ isIdentifier (97 :: 0 :: junk) ∧ (EventObj.calls {} [.add 1 (97 :: 0 :: junk), .names]).1 = [.done, .names [97 :: 0 :: junk]] :=
  fun junk => ⟨(C07_fails_for_embedded_nul junk).2, rfl⟩

/-- A sequence of calls: two collections, a name that is taken, an invalid name, a null collection, taking, removing, read-only. -/
def sampleCalls : List EventCall :=
  [.add 7 (str "Tracks"), .add 8 (str "Hits"), .names, .add 9 (str "Hits"), .add 9 (str "2Hits"), .add 0 (str "None"), .take (str "Hits"),
   .setAccessMode true, .remove (str "Hits"), .setAccessMode false, .remove (str "Tracks"), .get (str "Tracks"), .names]

/-- The answers to these calls. -/
example : (∀ col name, .add col name ∈ sampleCalls → (0 : Byte) ∉ name) ∧ (EventObj.calls {} sampleCalls).1 =
    [.done, .done, .names [str "Hits", str "Tracks"], .threw .eventException, .threw .eventException, .threw .eventException, .collection 8,
     .done, .threw .readOnly, .done, .done, .threw .notAvailable, .names [str "Hits"]] := by
  refine ⟨?_, by decide +kernel⟩
  intro col name h
  simp only [sampleCalls, List.mem_cons, EventCall.add.injEq, reduceCtorEq, List.not_mem_nil, or_false, false_or] at h
  rcases h with h | h | h | h | h <;> (rw [h.2]; decide)

/-! ## C63 -/

theorem destroyLoop_ok (no : List Nat) (m : List (Str × Nat)) (dead : List Nat) (hd : dead.Nodup)
    (hm : m.Pairwise fun a b => a.2 = b.2 → a.2 ∈ no) (hdm : ∀ e ∈ m, e.2 ∈ dead → e.2 ∈ no) :
    ∃ l, destroyLoop no m dead = .ok l ∧ l.Nodup ∧ ∀ c, c ∈ l ↔ c ∈ dead ∨ ((∃ e ∈ m, e.2 = c) ∧ c ∉ no) := by
  induction m generalizing dead with
  | nil => exact ⟨dead, rfl, hd, fun c => by simp⟩
  | cons e m ih =>
    have hm' := List.pairwise_cons.1 hm
    unfold destroyLoop
    by_cases h1 : e.2 ∈ no
    · rw [if_pos (by simpa using h1)]
      obtain ⟨l, h2, h3, h4⟩ := ih dead hd hm'.2 fun x hx => hdm x (by simp [hx])
      refine ⟨l, h2, h3, fun c => ?_⟩
      rw [h4]
      simp only [List.mem_cons]
      constructor
      · rintro (h | ⟨⟨x, hx, hxc⟩, hc⟩)
        · exact .inl h
        · exact .inr ⟨⟨x, .inr hx, hxc⟩, hc⟩
      · rintro (h | ⟨⟨x, hx | hx, hxc⟩, hc⟩)
        · exact .inl h
        · subst hx; exact (hc (hxc ▸ h1)).elim
        · exact .inr ⟨⟨x, hx, hxc⟩, hc⟩
    · have h5 : e.2 ∉ dead := fun hh => h1 (hdm e (by simp) hh)
      rw [if_neg (by simpa using h1), if_neg (by simpa using h5)]
      obtain ⟨l, h2, h3, h4⟩ := ih (dead ++ [e.2]) (by
          rw [List.nodup_append]
          refine ⟨hd, by simp, ?_⟩
          intro a ha b hb
          rw [List.mem_singleton.1 hb]
          intro hab; exact h5 (hab ▸ ha)) hm'.2 (by
          intro x hx hxd
          rcases List.mem_append.1 hxd with hxd | hxd
          · exact hdm x (by simp [hx]) hxd
          · have := List.mem_singleton.1 hxd
            exact this ▸ hm'.1 x hx this.symm)
      refine ⟨l, h2, h3, fun c => ?_⟩
      rw [h4]
      simp only [List.mem_append, List.mem_cons, List.not_mem_nil, or_false]
      constructor
      · rintro ((h | h) | ⟨⟨x, hx, hxc⟩, hc⟩)
        · exact .inl h
        · exact .inr ⟨⟨e, .inl rfl, h.symm⟩, h ▸ h1⟩
        · exact .inr ⟨⟨x, .inr hx, hxc⟩, hc⟩
      · rintro (h | ⟨⟨x, hx | hx, hxc⟩, hc⟩)
        · exact .inl (.inl h)
        · subst hx; exact .inl (.inr hxc.symm)
        · exact .inr ⟨⟨x, hx, hxc⟩, hc⟩

theorem notOwned_call (e : EventObj) (c : EventCall) (x : Nat) :
    x ∈ (e.call c).2.notOwned ↔ x ∈ e.notOwned ∨ ∃ name, c = .take name ∧ (e.call c).1 = .collection x := by
  cases c with
  | add col name =>
    simp only [EventObj.call, EventObj.addCollection]
    split
    · simp
    · rename_i h
      split at h
      · cases h
      · split at h
        · cases h
        · split at h
          · cases h
          · cases h; simp
  | get name => simp only [EventObj.call]; split <;> simp
  | take name =>
    simp only [EventObj.call, EventObj.takeCollection]
    cases e.getCollection name with
    | error y => simp
    | ok y =>
      simp only [List.mem_cons, EventCall.take.injEq, EventAnswer.collection.injEq, exists_eq_left']
      rw [or_comm, eq_comm]
  | remove name =>
    simp only [EventObj.call, EventObj.removeCollection]
    split
    · simp
    · rename_i h
      split at h
      · cases h
      · cases h; simp
  | names => simp [EventObj.call]
  | setAccessMode ro => simp [EventObj.call, EventObj.setAccessMode]

theorem notOwned_calls (cs : List EventCall) (e : EventObj) (x : Nat) :
    x ∈ (e.calls cs).2.notOwned ↔ x ∈ e.notOwned ∨ Taken cs (e.calls cs).1 x := by
  induction cs generalizing e with
  | nil => simp [EventObj.calls, Taken]
  | cons c cs ih =>
    simp only [EventObj.calls]
    rw [ih, notOwned_call]
    unfold Taken
    constructor
    · rintro ((h | ⟨name, h1, h2⟩) | ⟨i, name, h1, h2⟩)
      · exact .inl h
      · exact .inr ⟨0, name, by simp [h1], by simp [h2]⟩
      · exact .inr ⟨i + 1, name, by simpa using h1, by simpa using h2⟩
    · rintro (h | ⟨i, name, h1, h2⟩)
      · exact .inl (.inl h)
      · cases i with
        | zero => exact .inl (.inr ⟨name, by simpa using h1, by simpa using h2⟩)
        | succ i => exact .inr ⟨i, name, by simpa using h1, by simpa using h2⟩

theorem callSpec_det (v : EventView) (c : EventCall) (a : EventAnswer) (v₁ v₂ : EventView) (h1 : CallSpec v c a v₁) (h2 : CallSpec v c a v₂) : v₁ = v₂ := by
  cases c with
  | add col name =>
    by_cases h : isIdentifier name ∧ v.cols name = none ∧ col ≠ 0
    · rw [(h1.1 h).2, (h2.1 h).2]
    · rw [(h1.2 h).2, (h2.2 h).2]
  | get name => rw [h1.1, h2.1]
  | take name => rw [h1.1, h2.1]
  | remove name =>
    cases h : v.readOnly with
    | true => rw [(h1.2 h).2, (h2.2 h).2]
    | false => rw [(h1.1 h).2, (h2.1 h).2]
  | names => rw [h1.1, h2.1]
  | setAccessMode ro => rw [h1.2, h2.2]

theorem callsSpec_det (cs : List EventCall) (v : EventView) (as : List EventAnswer) (v₁ v₂ : EventView) (h1 : CallsSpec v cs as v₁) (h2 : CallsSpec v cs as v₂) :
    v₁ = v₂ := by
  induction cs generalizing v as with
  | nil => rw [h1.2, h2.2]
  | cons c cs ih =>
    obtain ⟨a, as1, w, rfl, h3, h4⟩ := h1
    obtain ⟨a', as1', w', h5, h6, h7⟩ := h2
    cases h5
    cases callSpec_det v c a w w' h3 h6
    exact ih _ _ h4 h7

/-- **C63**, if at the end no collection is in the event under two names (unless it was taken): destroying the event deletes exactly the
collections that are in the event and were not handed out by `takeCollection`, each of them once. What is missing: a collection under two
names (`C63_fails_for_two_names`), and removed collections (`C63_fails_for_removed`). -/
theorem C63_destroy_partial (cs : List EventCall) (hc : ∀ col name, .add col name ∈ cs → (0 : Byte) ∉ name) (v : EventView)
    (hv : CallsSpec .empty cs (EventObj.calls {} cs).1 v)
    (hone : ∀ n m c, v.cols n = some c → v.cols m = some c → n = m ∨ Taken cs (EventObj.calls {} cs).1 c) :
    ∃ l, (EventObj.calls {} cs).2.destroy = .ok l ∧ l.Nodup ∧
      ∀ c, c ∈ l ↔ (∃ n, v.cols n = some c) ∧ ¬ Taken cs (EventObj.calls {} cs).1 c := by
  obtain ⟨v', h1, h2⟩ := calls_show cs {} .empty ⟨List.Pairwise.nil, fun _ => rfl, rfl⟩ hc
  cases callsSpec_det cs _ _ _ _ h1 hv
  have hno := fun x => notOwned_calls cs {} x
  simp only [List.not_mem_nil, false_or] at hno
  have hfind : ∀ e ∈ (EventObj.calls {} cs).2.colMap, v.cols e.1 = some e.2 := by
    intro e he
    rw [← h2.cols]
    exact omFind_mem strWeak _ h2.ordered e he
  obtain ⟨l, h3, h4, h5⟩ := destroyLoop_ok (EventObj.calls {} cs).2.notOwned (EventObj.calls {} cs).2.colMap [] List.nodup_nil (by
      refine List.Pairwise.imp_of_mem ?_ h2.ordered
      intro a b ha hb hab h
      rcases hone a.1 b.1 a.2 (hfind a ha) (h ▸ hfind b hb) with hh | hh
      · rw [hh, strWeak.irrefl] at hab; cases hab
      · exact (hno _).2 hh) (by simp)
  refine ⟨l, h3, h4, fun c => ?_⟩
  rw [h5, hno]
  simp only [List.not_mem_nil, false_or]
  refine and_congr_left fun _ => ⟨?_, ?_⟩
  · rintro ⟨e, he, hc⟩
    exact ⟨e.1, hc ▸ hfind e he⟩
  · rintro ⟨n, hn⟩
    rw [← h2.cols, omFind_str] at hn
    obtain ⟨e, he, hec⟩ := Option.map_eq_some_iff.1 hn
    exact ⟨e, List.mem_of_find?_eq_some he, hec⟩

/-- **C63** fails for a collection added under two names: destroying the event deletes it twice. -/
theorem C63_fails_for_two_names :
    (EventObj.calls {} [.add 7 (str "A"), .add 7 (str "B")]).1 = [.done, .done] ∧
    (EventObj.calls {} [.add 7 (str "A"), .add 7 (str "B")]).2.destroy = .error .ub := by decide +kernel

/-- **C63** fails for removed collections: `removeCollection` is documented to delete the collection, but neither it nor the destructor of the event
does. -/
theorem C63_fails_for_removed :
    (EventObj.calls {} [.add 7 (str "A"), .remove (str "A")]).1 = [.done, .done] ∧
    (EventObj.calls {} [.add 7 (str "A"), .remove (str "A")]).2.destroy = .ok [] := by decide +kernel

/-- Collections of which one was taken: destroying the event deletes the others. -/
example : (EventObj.calls {} [.add 7 (str "A"), .add 8 (str "B"), .add 9 (str "C"), .take (str "B")]).2.destroy = .ok [7, 9] := by decide +kernel

/-! ## C48 -/

/-- The parameters hold exactly what the maps say. -/
structure Holds (p : Params) (m : PMaps) : Prop where
  ordered : ∀ t, Ordered strLt (p.map t)
  find : ∀ t k, omFind strLt k (p.map t) = m t k
  writable : p.readOnly = false

theorem assignVal_find {α : Type} (m : VecMap α) (k k' : Str) (v : α) :
    omFind strLt k' (assignVal m k v) = if k' = k then some [v] else omFind strLt k' m := by
  unfold assignVal
  simp only [omFind_assign_str, ↓reduceIte, Option.getD_some, List.nil_append]
  by_cases h : k' = k <;> simp [h]

theorem assignVal_ordered {α : Type} (m : VecMap α) (k : Str) (v : α) (h : Ordered strLt m) : Ordered strLt (assignVal m k v) :=
  ordered_assign _ _ _ (ordered_assign _ _ _ h)

theorem holds_of (p p' : Params) (m : PMaps) (h : Holds p m) (t : PType) (k : Str) (vs : List t.T) (hr : p'.readOnly = false)
    (h1 : Ordered strLt (p'.map t)) (h2 : ∀ k', omFind strLt k' (p'.map t) = if k' = k then some vs else omFind strLt k' (p.map t))
    (h3 : ∀ t', t' ≠ t → p'.map t' = p.map t') : Holds p' (m.put t k vs) := by
  refine ⟨fun t' => ?_, fun t' k' => ?_, hr⟩
  · by_cases ht : t' = t
    · subst ht; exact h1
    · rw [h3 t' ht]; exact h.ordered t'
  · unfold PMaps.put
    by_cases ht : t' = t
    · subst ht
      rw [h2, dif_pos rfl, h.find]
    · rw [dif_neg ht, h3 t' ht, h.find]

theorem set_holds (p : Params) (m : PMaps) (h : Holds p m) (t : PType) (k : Str) (v : t.T) :
    ∃ p', p.set t k v = .ok p' ∧ Holds p' (m.put t k [v]) := by
  have hr := h.writable
  cases t
  · refine ⟨{ p with ints := assignVal p.ints k v }, by simp [Params.set, Params.setInt, Params.checked, hr], holds_of p _ m h .int k [v] hr (assignVal_ordered _ _ _ (h.ordered .int)) (fun k' => assignVal_find _ _ _ _) ?_⟩
    intro t' ht; cases t' <;> first | rfl | exact (ht rfl).elim
  · refine ⟨{ p with floats := assignVal p.floats k v }, by simp [Params.set, Params.setFloat, Params.checked, hr], holds_of p _ m h .float k [v] hr (assignVal_ordered _ _ _ (h.ordered .float)) (fun k' => assignVal_find _ _ _ _) ?_⟩
    intro t' ht; cases t' <;> first | rfl | exact (ht rfl).elim
  · refine ⟨{ p with strs := assignVal p.strs k v }, by simp [Params.set, Params.setStr, Params.checked, hr], holds_of p _ m h .str k [v] hr (assignVal_ordered _ _ _ (h.ordered .str)) (fun k' => assignVal_find _ _ _ _) ?_⟩
    intro t' ht; cases t' <;> first | rfl | exact (ht rfl).elim

theorem setAll_holds (p : Params) (m : PMaps) (h : Holds p m) (t : PType) (k : Str) (vs : List t.T) :
    ∃ p', p.setAll t k vs = .ok p' ∧ Holds p' (m.put t k vs) := by
  have hr := h.writable
  cases t
  · refine ⟨{ p with ints := assignVals p.ints k vs }, by simp [Params.setAll, Params.setInts, Params.checked, hr], holds_of p _ m h .int k vs hr (ordered_assign _ _ _ (h.ordered .int)) (fun k' => omFind_assign_str _ _ _ _) ?_⟩
    intro t' ht; cases t' <;> first | rfl | exact (ht rfl).elim
  · refine ⟨{ p with floats := assignVals p.floats k vs }, by simp [Params.setAll, Params.setFloats, Params.checked, hr], holds_of p _ m h .float k vs hr (ordered_assign _ _ _ (h.ordered .float)) (fun k' => omFind_assign_str _ _ _ _) ?_⟩
    intro t' ht; cases t' <;> first | rfl | exact (ht rfl).elim
  · refine ⟨{ p with strs := assignVals p.strs k vs }, by simp [Params.setAll, Params.setStrs, Params.checked, hr], holds_of p _ m h .str k vs hr (ordered_assign _ _ _ (h.ordered .str)) (fun k' => omFind_assign_str _ _ _ _) ?_⟩
    intro t' ht; cases t' <;> first | rfl | exact (ht rfl).elim

theorem getVal_spec {α : Type} (zero : α) (m : VecMap α) (k : Str) (o : Option (List α)) (h : omFind strLt k m = o) (hs : o ≠ some []) :
    ∃ v, getVal zero m k = .ok v ∧ (o = none → v = zero) ∧ ∀ vs, o = some vs → vs[0]? = some v := by
  unfold getVal
  rw [h]
  cases o with
  | none => exact ⟨zero, rfl, fun _ => rfl, fun vs hh => by cases hh⟩
  | some l =>
    cases l with
    | nil => exact (hs rfl).elim
    | cons v l => exact ⟨v, rfl, fun hh => (by cases hh), fun vs hh => by cases hh; rfl⟩

theorem paramCall_holds (p : Params) (m : PMaps) (h : Holds p m) (c : ParamCall) (hs : SafeCall m c) :
    ∃ a p' m', p.call c = .ok (a, p') ∧ ParamSpec m c a m' ∧ Holds p' m' := by
  cases c with
  | set t k v =>
    obtain ⟨p', h1, h2⟩ := set_holds p m h t k v
    exact ⟨.done, p', _, by simp only [Params.call, h1], ⟨rfl, rfl⟩, h2⟩
  | setAll t k vs =>
    obtain ⟨p', h1, h2⟩ := setAll_holds p m h t k vs
    exact ⟨.done, p', _, by simp only [Params.call, h1], ⟨rfl, rfl⟩, h2⟩
  | get t k =>
    obtain ⟨v, h1, h2, h3⟩ := getVal_spec t.zero (p.map t) k _ (h.find t k) hs
    exact ⟨.value t v, p, m, by simp only [Params.call, h1], ⟨rfl, v, rfl, h2, h3⟩, h⟩
  | getAll t k given =>
    refine ⟨_, p, m, rfl, ⟨rfl, ?_⟩, h⟩
    have := h.find t k
    unfold getVals
    rw [this]
    cases m t k <;> simp
  | keys t given =>
    refine ⟨_, p, m, rfl, ⟨rfl, _, rfl, ?_⟩, h⟩
    have := lists_keys _ (h.ordered t)
    simp only [h.find] at this
    exact this
  | count t k =>
    refine ⟨_, p, m, rfl, ⟨rfl, ?_⟩, h⟩
    have := h.find t k
    unfold getN
    rw [this]
    cases m t k <;> rfl
  | setOwn k s =>
    obtain ⟨v, h1, h2, h3⟩ := getVal_spec (α := Str) [] p.strs s _ (h.find .str s) hs.1
    obtain ⟨p', h4, h5⟩ := set_holds p m h .str k v
    have hno : ¬ (k = s ∧ (omFind strLt s p.strs).isSome = true) := by
      rintro ⟨rfl, hh⟩
      have := h.find .str k
      rw [hs.2 rfl] at this
      change omFind strLt k p.strs = none at this
      rw [this] at hh; cases hh
    refine ⟨.done, p', _, ?_, ⟨rfl, v, ⟨h2, h3⟩, rfl⟩, h5⟩
    simp only [Params.call, Params.setOwn, h1, h.writable, Bool.false_eq_true, ↓reduceIte, hno]
    change p.setStr k v = .ok p' at h4
    rw [h4]

theorem paramCalls_hold (cs : List ParamCall) (p : Params) (m : PMaps) (h : Holds p m) (hs : SafeCalls m cs) :
    ∃ as p' m', p.calls cs = .ok (as, p') ∧ ParamsSpec m cs as m' ∧ Holds p' m' := by
  induction cs generalizing p m with
  | nil => exact ⟨[], p, m, rfl, ⟨rfl, rfl⟩, h⟩
  | cons c cs ih =>
    obtain ⟨a, p1, m1, h1, h2, h3⟩ := paramCall_holds p m h c hs.1
    obtain ⟨as, p2, m2, h4, h5, h6⟩ := ih p1 m1 h3 (hs.2 a m1 h2)
    exact ⟨a :: as, p2, m2, by simp only [Params.calls, h1, h4], ⟨a, as, m1, rfl, h2, h5⟩, h6⟩

/-- **C48**, for calls that are safe (`SafeCall`): whatever the sequence of calls on new parameters, none fails, and each answers and does what it
would do on three independent maps from keys to lists of values: `setValue` and `setValues` replace the values of that key and type
and change nothing else, single values and lists are the ones set last, missing keys read as 0 or the empty string, keys are listed in
lexicographic order. `getXVals` and `getXKeys` append to the vector they are given. What is missing: reading a single value of a key
that was set to an empty list (`C48_fails_for_empty`), and setting a string from a reference to itself (`C48_fails_for_own_value`). -/
theorem C48_maps_partial (cs : List ParamCall) (hs : SafeCalls (fun _ _ => none) cs) :
    ∃ as p m, Params.calls {} cs = .ok (as, p) ∧ ParamsSpec (fun _ _ => none) cs as m ∧
      ∀ t k, getVals (p.map t) k [] = (m t k).getD [] := by
  obtain ⟨as, p, m, h1, h2, h3⟩ := paramCalls_hold cs {} (fun _ _ => none)
    ⟨fun t => by cases t <;> exact List.Pairwise.nil, fun t k => by cases t <;> rfl, rfl⟩ hs
  refine ⟨as, p, m, h1, h2, fun t k => ?_⟩
  unfold getVals
  rw [h3.find]
  cases m t k <;> rfl

/-- **C48** for read-only parameters: every call that sets something throws `ReadOnlyException`, and the others answer as on the same parameters
that are not read-only. -/
theorem C48_read_only (p : Params) :
    (∀ t k v, ({ p with readOnly := true } : Params).call (.set t k v) = .error .readOnly) ∧
    (∀ t k vs, ({ p with readOnly := true } : Params).call (.setAll t k vs) = .error .readOnly) ∧
    (∀ k source v, getVal [] p.strs source = .ok v → ({ p with readOnly := true } : Params).call (.setOwn k source) = .error .readOnly) ∧
    (∀ c, (∀ t k v, c ≠ .set t k v) → (∀ t k vs, c ≠ .setAll t k vs) → (∀ k source, c ≠ .setOwn k source) →
      ({ p with readOnly := true } : Params).call c = (p.call c).map fun a => (a.1, { p with readOnly := true })) := by
  refine ⟨fun t k v => by cases t <;> rfl, fun t k v => by cases t <;> rfl, fun k source v h => ?_, fun c h1 h2 h3 => ?_⟩
  · simp only [Params.call, Params.setOwn, h, if_true]
  · have hm : ∀ t, ({ p with readOnly := true } : Params).map t = p.map t := fun t => by cases t <;> rfl
    cases c with
    | set t k v => exact (h1 t k v rfl).elim
    | setAll t k v => exact (h2 t k v rfl).elim
    | setOwn k s => exact (h3 k s rfl).elim
    | get t k =>
      simp only [Params.call, hm]
      cases getVal t.zero (p.map t) k <;> rfl
    | getAll t k g => simp only [Params.call, hm]; rfl
    | keys t g => simp only [Params.call, hm]; rfl
    | count t k => simp only [Params.call, hm]; rfl

/-- **C48** fails for a key that was set to an empty list: reading its single value is undefined behaviour, for each of the types. -/
theorem C48_fails_for_empty (t : PType) (k : Str) : Params.calls {} [.setAll t k [], .get t k] = .error .ub := by
  cases t <;>
  simp [Params.calls, Params.call, Params.setAll, Params.setInts, Params.setFloats, Params.setStrs, Params.checked, assignVals, omAssign, Params.map, getVal, omFind, eqv,
    strWeak.irrefl]

/-- **C48** fails for `p.setValue(key, p.getStringVal(key))`: the string is destroyed before it is copied. -/
theorem C48_fails_for_own_value (k v : Str) : Params.calls {} [.set .str k v, .setOwn k k] = .error .ub := by
  simp [Params.calls, Params.call, Params.set, Params.setStr, Params.checked, assignVal, omAssign, Params.setOwn, getVal, omFind, eqv, strWeak.irrefl]

/-- A sequence of safe calls: the same key in two types, a value replaced, a string copied from another key. -/
def sampleParamCalls : List ParamCall :=
  [.set .int (str "N") 5#32, .set .str (str "N") (str "five"), .setAll .int (str "N") [1#32, 2#32], .get .int (str "N"), .getAll .int (str "N") [9#32],
   .setOwn (str "M") (str "N"), .keys .str [], .get .float (str "N"), .count .int (str "N")]

/-- The maps after the calls that set something. -/
example : ∃ as p, Params.calls {} sampleParamCalls = .ok (as, p) ∧ p.strs = [(str "M", [str "five"]), (str "N", [str "five"])] ∧ p.ints = [(str "N", [1, 2])] :=
  ⟨_, _, rfl, by decide +kernel, by decide +kernel⟩

/-- These calls are safe. -/
example : SafeCalls (fun _ _ => none) sampleParamCalls := by
  simp only [sampleParamCalls, SafeCalls, SafeCall, true_and, ParamSpec]
  rintro _ _ ⟨rfl, rfl⟩ _ _ ⟨rfl, rfl⟩ _ _ ⟨rfl, rfl⟩
  refine ⟨by decide +kernel, ?_⟩
  rintro _ _ ⟨rfl, _⟩ _ _ ⟨rfl, _⟩
  refine ⟨⟨by decide +kernel, fun h => absurd h (by decide)⟩, ?_⟩
  rintro _ _ ⟨_, v, _, rfl⟩ _ _ ⟨rfl, _⟩
  refine ⟨by simp [PMaps.put], ?_⟩
  intros; trivial

end Props
