import Verif.Util.NavigatorLemmas
/-
C53: the relation navigator. The addition of weights is a parameter of the theorems, so they hold for the addition of `float`s with its rounding.
-/
namespace Props
open Sio Lcio Util Spec

theorem call_holds (add : W32 → W32 → W32) (n : Navigator) (R : List Relation) (h : NavHolds n R) (c : NavCall) :
    RelAnswer n.fromType n.toType R c (n.call add c).1 ∧ NavHolds (n.call add c).2 (relAfter add R c) ∧
    (n.call add c).2.fromType = n.fromType ∧ (n.call add c).2.toType = n.toType := by
  cases c with
  | add a b w => exact ⟨rfl, h.add add a b w, rfl, rfl⟩
  | remove a b => exact ⟨rfl, h.remove a b, rfl, rfl⟩
  | toObjects a =>
    refine ⟨?_, ⟨h.nodup, h.fwd.touch a, h.bwd⟩, rfl, rfl⟩
    simp only [RelAnswer, Navigator.call, h.fwd.entry a]
  | toWeights a =>
    refine ⟨?_, ⟨h.nodup, h.fwd.touch a, h.bwd⟩, rfl, rfl⟩
    simp only [RelAnswer, Navigator.call, h.fwd.entry a]
  | fromObjects b =>
    refine ⟨?_, ⟨h.nodup, h.fwd, h.bwd.touch b⟩, rfl, rfl⟩
    simp only [RelAnswer, Navigator.call, h.bwd.entry b, flip_filter, List.map_map]
    rfl
  | fromWeights b =>
    refine ⟨?_, ⟨h.nodup, h.fwd, h.bwd.touch b⟩, rfl, rfl⟩
    simp only [RelAnswer, Navigator.call, h.bwd.entry b, flip_filter, List.map_map]
    rfl
  | create =>
    have hp := perm_of_filters _ _ h.fwd.elements
    refine ⟨⟨n.createLCCollection, rfl, hp, navElements_sorted _ h.fwd.ordered, h.fwd.elements, ?_, ?_, ?_, ?_⟩, h, rfl, rfl⟩
    · show (if (navElements n.map).any (fun r => r.weight != 0x3f800000#32) then (0x80000000 : W32) else 0).getLsbD 31 = true ↔ _
      by_cases hx : (navElements n.map).any (fun r => r.weight != 0x3f800000#32) = true
      · rw [if_pos hx]
        refine ⟨fun _ => ?_, fun _ => by decide⟩
        obtain ⟨r, hr, hw⟩ := List.any_eq_true.1 hx
        exact ⟨r, hp.mem_iff.1 hr, by simpa using hw⟩
      · rw [if_neg hx]
        refine ⟨fun e => absurd e (by decide), ?_⟩
        rintro ⟨r, hr, hw⟩
        exact absurd (List.any_eq_true.2 ⟨r, hp.mem_iff.2 hr, by simpa using hw⟩) hx
    · intro i hi
      show (if (navElements n.map).any (fun r => r.weight != 0x3f800000#32) then (0x80000000 : W32) else 0).getLsbD i = false
      split
      · have : ∀ i : Fin 31, (0x80000000 : W32).getLsbD i.val = false := by decide
        exact this ⟨i, hi⟩
      · simp
    · simp only [Navigator.createLCCollection, getVal, omFind_assignVal]
      rw [if_neg (by decide), if_pos trivial]
    · simp only [Navigator.createLCCollection, getVal, omFind_assignVal]
      rw [if_pos trivial]

theorem calls_hold (add : W32 → W32 → W32) (n : Navigator) (R : List Relation) (h : NavHolds n R) (cs : List NavCall) :
    ∃ R', RelAnswers add n.fromType n.toType R cs (n.calls add cs).1 R' ∧ NavHolds (n.calls add cs).2 R' := by
  induction cs generalizing n R with
  | nil => exact ⟨R, ⟨rfl, rfl⟩, h⟩
  | cons c cs ih =>
    obtain ⟨h1, h2, h3, h4⟩ := call_holds add n R h c
    obtain ⟨R', i1, i2⟩ := ih _ _ h2
    rw [h3, h4] at i1
    exact ⟨R', ⟨_, _, rfl, h1, i1⟩, i2⟩

theorem new_holds (f t : Str) : NavHolds { fromType := f, toType := t } [] :=
  ⟨List.nodup_nil, ⟨List.Pairwise.nil, fun _ => rfl⟩, ⟨List.Pairwise.nil, fun _ => rfl⟩⟩

/-- **C53**: a new navigator answers any sequence of calls as the list of relations does: objects and weights in the order of addition, from both sides, and
collections with exactly these relations. -/
theorem C53_navigator (add : W32 → W32 → W32) (fromType toType : Str) (cs : List NavCall) :
    ∃ R, RelAnswers add fromType toType [] cs (Navigator.calls add { fromType, toType } cs).1 R :=
  let ⟨R, h, _⟩ := calls_hold add { fromType, toType } [] (new_holds fromType toType) cs
  ⟨R, h⟩

/-- **C53**: after any sequence of calls `b` is listed for `a` with a weight exactly when `a` is listed for `b` with this weight, and no object is listed
twice. -/
theorem C53_symmetric (add : W32 → W32 → W32) (fromType toType : Str) (cs : List NavCall) (a b : Nat) (w : W32) :
    let n := (Navigator.calls add { fromType, toType } cs).2
    ((b, w) ∈ (n.map.at a).1.zip (n.map.at a).2 ↔ (a, w) ∈ (n.rMap.at b).1.zip (n.rMap.at b).2) ∧
    (n.map.at a).1.Nodup ∧ (n.rMap.at b).1.Nodup ∧ (n.map.at a).1.length = (n.map.at a).2.length ∧ (n.rMap.at b).1.length = (n.rMap.at b).2.length := by
  obtain ⟨R, _, h⟩ := calls_hold add { fromType, toType } [] (new_holds fromType toType) cs
  intro n
  have hz : ∀ (E : List Relation) (x : Nat × W32), x ∈ (E.map (·.to)).zip (E.map (·.weight)) ↔ ∃ r ∈ E, (r.to, r.weight) = x := by
    intro E x; rw [List.zip_map', List.mem_map]
  have hnd : ∀ (E : List Relation) (k : Nat), (E.map ends).Nodup → (∀ r ∈ E, r.from_ = k) → (E.map (·.to)).Nodup := by
    intro E k hn hk
    unfold List.Nodup at hn ⊢
    rw [List.pairwise_map] at hn ⊢
    refine hn.imp_of_mem ?_
    intro r s hr hs hne e
    exact hne (by unfold ends; rw [hk r hr, hk s hs, e])
  rw [h.fwd.entry a, h.bwd.entry b]
  refine ⟨?_, hnd _ a (nodup_filter R _ h.nodup) (from_of_filter R a), hnd _ b (nodup_filter _ _ (nodup_flip R h.nodup)) (from_of_filter _ b),
    by simp only [List.length_map], by simp only [List.length_map]⟩
  rw [hz, hz]
  simp only [List.mem_filter, List.mem_map, decide_eq_true_eq, Prod.mk.injEq]
  constructor
  · rintro ⟨r, ⟨h1, h2⟩, h3, h4⟩
    exact ⟨flip r, ⟨⟨r, h1, rfl⟩, h3⟩, h2, h4⟩
  · rintro ⟨_, ⟨⟨r, h1, rfl⟩, h2⟩, h3, h4⟩
    exact ⟨r, ⟨h1, h3⟩, h2, h4⟩

theorem fold_holds (add : W32 → W32 → W32) (els : List Relation) (n : Navigator) (R : List Relation) (h : NavHolds n R) (hn : ((R ++ els).map ends).Nodup) :
    NavHolds (els.foldl (fun n r => n.addRelation add r.from_ r.to r.weight) n) (R ++ els) ∧
    (els.foldl (fun n r => n.addRelation add r.from_ r.to r.weight) n).fromType = n.fromType ∧
    (els.foldl (fun n r => n.addRelation add r.from_ r.to r.weight) n).toType = n.toType := by
  induction els generalizing n R with
  | nil => rw [List.append_nil]; exact ⟨h, rfl, rfl⟩
  | cons r els ih =>
    have hnew : relAdd add R r.from_ r.to r.weight = R ++ [r] := by
      unfold relAdd
      rw [if_neg]
      rw [List.map_append, List.nodup_append] at hn
      intro e
      exact hn.2.2 _ e _ (List.mem_cons_self (a := ends r)) rfl
    have h' := h.add add r.from_ r.to r.weight
    rw [hnew] at h'
    have := ih _ _ h' (by rw [List.append_assoc]; exact hn)
    rw [List.append_assoc] at this
    exact this

/-- **C53**: after any sequence of calls the navigator made from the collection knows the same relations: the same objects and weights in the same order for
the first objects, and the same ones in some order for the second objects. -/
theorem C53_collection_round_trip (add : W32 → W32 → W32) (fromType toType : Str) (cs : List NavCall) :
    let n := (Navigator.calls add { fromType, toType } cs).2
    ∃ n', Navigator.ofCollection add n.createLCCollection = .ok n' ∧ n'.fromType = fromType ∧ n'.toType = toType ∧
      (∀ a, n'.map.at a = n.map.at a) ∧ ∀ b, ((n'.rMap.at b).1.zip (n'.rMap.at b).2).Perm ((n.rMap.at b).1.zip (n.rMap.at b).2) := by
  obtain ⟨R, _, h⟩ := calls_hold add { fromType, toType } [] (new_holds fromType toType) cs
  intro n
  have hp := perm_of_filters _ _ h.fwd.elements
  have htypes : n.fromType = fromType ∧ n.toType = toType := by
    have : ∀ (cs : List NavCall) (m : Navigator), (m.calls add cs).2.fromType = m.fromType ∧ (m.calls add cs).2.toType = m.toType := by
      intro cs
      induction cs with
      | nil => intro m; exact ⟨rfl, rfl⟩
      | cons c cs ih =>
        intro m
        obtain ⟨i1, i2⟩ := ih (m.call add c).2
        have : (m.call add c).2.fromType = m.fromType ∧ (m.call add c).2.toType = m.toType := by cases c <;> exact ⟨rfl, rfl⟩
        exact ⟨i1.trans this.1, i2.trans this.2⟩
    exact this cs { fromType, toType }
  have hgf : getVal [] n.createLCCollection.params.strs (str "FromType") = .ok fromType := by
    simp only [Navigator.createLCCollection, getVal, omFind_assignVal]
    rw [if_neg (by decide), if_pos trivial, htypes.1]
  have hgt : getVal [] n.createLCCollection.params.strs (str "ToType") = .ok toType := by
    simp only [Navigator.createLCCollection, getVal, omFind_assignVal]
    rw [if_pos trivial, htypes.2]
  obtain ⟨f1, f2, f3⟩ := fold_holds add (navElements n.map) { fromType, toType } [] (new_holds fromType toType) (by
    rw [List.nil_append]; exact (hp.map ends).nodup_iff.2 h.nodup)
  rw [List.nil_append] at f1
  refine ⟨(navElements n.map).foldl (fun n r => n.addRelation add r.from_ r.to r.weight) { fromType, toType }, ?_, f2, f3, ?_, ?_⟩
  · unfold Navigator.ofCollection
    rw [hgf, hgt]; rfl
  · intro a
    rw [f1.fwd.entry a, h.fwd.elements a, h.fwd.entry a]
  · intro b
    rw [f1.bwd.entry b, h.bwd.entry b, List.zip_map', List.zip_map']
    exact ((hp.map flip).filter _).map _

/-- A case: weights are added, a relation is removed and another one added again. -/
def navSample : List NavCall :=
  [.add 10 20 0x3f800000, .add 5 20 0x3f800000, .add 10 21 0x40000000, .toObjects 7, .add 10 20 0x3f800000, .remove 5 20, .fromObjects 20, .toWeights 10, .create]

example : (Navigator.calls (· + ·) { fromType := str "Track", toType := str "MCParticle" } navSample).1.map (fun x => match x with
    | .objects l => l.length | .weights l => l.length + 10 | .collection c => c.elements.length + 20 | .done => 100) = [100, 100, 100, 0, 100, 100, 1, 12, 22] := by
  decide +kernel

end Props
