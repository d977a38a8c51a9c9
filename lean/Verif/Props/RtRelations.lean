import Verif.Lcio.RtRelations
/-
C56: relations at run time.
-/
namespace Props
open Sio Lcio

/-- Every object refers to the other exactly when that one refers back. -/
def OneConsistent (s : OneRel) : Prop := ∀ f t, f ≠ 0 → t ≠ 0 → (s.to f = t ↔ s.from_ t = f)

theorem one_unset (s : OneRel) (f : Nat) (h : OneConsistent s) :
    OneConsistent (s.unset f) ∧ (f ≠ 0 → (s.unset f).to f = 0) ∧ (∀ t, t ≠ 0 → (s.unset f).from_ t = if f ≠ 0 ∧ s.from_ t = f then 0 else s.from_ t) ∧
    ∀ g, (s.unset f).to g = if f ≠ 0 ∧ g = f then 0 else s.to g := by
  unfold OneRel.unset
  by_cases hf : f ≠ 0
  · rw [if_pos hf]
    have hto : ∀ g, setSlot s.to f 0 g = if f ≠ 0 ∧ g = f then 0 else s.to g := by
      intro g; unfold setSlot
      by_cases hg : g = f
      · rw [if_pos hg, if_pos ⟨hf, hg⟩]
      · rw [if_neg hg, if_neg (fun e => hg e.2)]
    have hfr : ∀ t, t ≠ 0 → (if s.to f ≠ 0 then { s with from_ := setSlot s.from_ (s.to f) 0 } else s).from_ t = if f ≠ 0 ∧ s.from_ t = f then 0 else s.from_ t := by
      intro t ht
      by_cases hz : s.to f ≠ 0
      · rw [if_pos hz]
        simp only [setSlot]
        by_cases e : t = s.to f
        · rw [if_pos e, if_pos ⟨hf, (h f t hf ht).1 e.symm⟩]
        · rw [if_neg e, if_neg (fun e' => e ((h f t hf ht).2 e'.2).symm)]
      · rw [if_neg hz, if_neg]
        rintro ⟨_, e⟩
        exact hz (by rw [(h f t hf ht).2 e]; exact ht)
    have hto' : (if s.to f ≠ 0 then { s with from_ := setSlot s.from_ (s.to f) 0 } else s).to = s.to := by split <;> rfl
    refine ⟨?_, ?_, ?_, ?_⟩
    · intro g t hg ht
      simp only [hto', hto, hfr t ht]
      have := h g t hg ht
      by_cases e1 : g = f
      · rw [if_pos ⟨hf, e1⟩]
        constructor
        · intro e; exact absurd e.symm ht
        · split
          · intro e; exact absurd e.symm hg
          · rename_i h2; intro e; exact absurd ⟨hf, e.trans e1⟩ h2
      · rw [if_neg (fun e => e1 e.2)]
        split
        · rename_i h2
          rw [this, h2.2]
          exact ⟨fun e => absurd e.symm e1, fun e => absurd e.symm hg⟩
        · exact this
    · intro _; simp only [hto', setSlot, if_true]
    · intro t ht; exact hfr t ht
    · intro g; simp only [hto', hto]
  · rw [if_neg hf]
    refine ⟨h, fun e => absurd e hf, fun t _ => by rw [if_neg (fun e => hf e.1)], fun g => by rw [if_neg (fun e => hf e.1)]⟩

/-- **C56**, one to one: after any sequence of `set_relation` and `unset_relation`, `f` refers to `t` exactly when `t` refers back to `f`. (Null pointers
as arguments of `set_relation` are the only undefined behaviour.) -/
theorem C56_one_to_one (cs : List OneCall) (hc : ∀ f t, .set f t ∈ cs → f ≠ 0 ∧ t ≠ 0) :
    ∃ s, OneRel.calls {} cs = .ok s ∧ ∀ f t, f ≠ 0 → t ≠ 0 → (s.to f = t ↔ s.from_ t = f) := by
  have main : ∀ (cs : List OneCall) (s : OneRel), OneConsistent s → (∀ f t, .set f t ∈ cs → f ≠ 0 ∧ t ≠ 0) → ∃ s', s.calls cs = .ok s' ∧ OneConsistent s' := by
    intro cs
    induction cs with
    | nil => intro s h _; exact ⟨s, rfl, h⟩
    | cons c cs ih =>
      intro s h hc
      have hc' : ∀ f t, .set f t ∈ cs → f ≠ 0 ∧ t ≠ 0 := fun f t hm => hc f t (List.mem_cons_of_mem _ hm)
      cases c with
      | unset f =>
        obtain ⟨s', h1, h2⟩ := ih (s.unset f) (one_unset s f h).1 hc'
        exact ⟨s', h1, h2⟩
      | set f t =>
        obtain ⟨hf, ht⟩ := hc f t List.mem_cons_self
        have hne : ¬ (f = 0 ∨ t = 0) := by omega
        obtain ⟨u1, u2, u3, u4⟩ := one_unset s f h
        obtain ⟨v1, v2, v3, v4⟩ := one_unset (s.unset f) ((s.unset f).from_ t) u1
        have hok : s.call (.set f t) = .ok (OneRel.mk (setSlot ((s.unset f).unset ((s.unset f).from_ t)).to f t)
            (setSlot ((s.unset f).unset ((s.unset f).from_ t)).from_ t f)) := by
          simp only [OneRel.call, OneRel.set, if_neg hne]
        generalize hs2 : (s.unset f).unset ((s.unset f).from_ t) = s2 at *
        have hto : s2.to f = 0 := by
          rw [v4 f, u2 hf]; split <;> rfl
        have hfrt : s2.from_ t = 0 := by
          rw [v3 t ht]
          split
          · rfl
          · rename_i hx
            by_cases h0 : (s.unset f).from_ t = 0
            · exact h0
            · exact absurd ⟨h0, rfl⟩ hx
        obtain ⟨s', h1, h2⟩ := ih { to := setSlot s2.to f t, from_ := setSlot s2.from_ t f } (by
          intro g u hg hu
          have := v1 g u hg hu
          simp only [setSlot]
          by_cases eg : g = f
          · by_cases eu : u = t
            · rw [if_pos eg, if_pos eu, eg, eu]; simp
            · rw [if_pos eg, if_neg eu, ← this, eg, hto]
              exact ⟨fun e => absurd e.symm eu, fun e => absurd e.symm hu⟩
          · by_cases eu : u = t
            · rw [if_neg eg, if_pos eu, this, eu, hfrt]
              exact ⟨fun e => absurd e.symm hg, fun e => absurd e.symm eg⟩
            · rw [if_neg eg, if_neg eu]; exact this) hc'
        exact ⟨s', by rw [OneRel.calls, hok]; exact h1, h2⟩
  have h0 : OneConsistent {} := by
    intro f t hf ht
    exact ⟨fun e => absurd e.symm ht, fun e => absurd e.symm hf⟩
  exact main cs {} h0 hc

theorem mergeLoop_perm (n : Nat) (a b : List Nat) : (mergeLoop n a b).Perm (a ++ b) := by
  induction n generalizing a b with
  | zero => exact List.Perm.refl _
  | succ n ih =>
    match a, b with
    | [], b => exact List.Perm.refl _
    | x :: a, [] => exact List.Perm.refl _
    | x :: a, y :: b =>
      rw [mergeLoop]
      split
      · exact ((ih (x :: a) b).cons y).trans List.perm_middle.symm
      · exact (ih a (y :: b)).cons x

theorem merge_mem {a b l : List Nat} (h : listMerge a b = .ok l) : l.Perm (a ++ b) := by
  unfold listMerge at h
  split at h
  · injection h with h
    rw [← h]; exact mergeLoop_perm _ _ _
  · cases h

/-- The loop of `remove_relations`. -/
theorem loop_remove (f : Nat) (L : List Nat) (m : Nat → List Nat) (x : Nat) :
    L.foldl (fun m t => setSlot m t ((m t).filter (· ≠ f))) m x = if x ∈ L then (m x).filter (· ≠ f) else m x := by
  induction L generalizing m with
  | nil => rfl
  | cons t L ih =>
    rw [List.foldl_cons, ih]
    unfold setSlot
    by_cases h1 : x = t
    · have hm : x ∈ t :: L := by rw [h1]; exact List.mem_cons_self
      rw [if_pos h1, if_pos hm, h1]
      split
      · rw [List.filter_filter]; simp
      · rfl
    · rw [if_neg h1]
      by_cases h2 : x ∈ L
      · rw [if_pos h2, if_pos (List.mem_cons_of_mem _ h2)]
      · rw [if_neg h2, if_neg (by simp only [List.mem_cons, not_or]; exact ⟨h1, h2⟩)]

/-- The loop of `merge_relations`. -/
theorem loop_merge (f1 f2 : Nat) (L : List Nat) (m : Nat → List Nat) (x g : Nat) :
    g ∈ L.foldl (fun m t => setSlot m t ((m t).filter (· ≠ f2) ++ [f1])) m x ↔ if x ∈ L then g = f1 ∨ g ≠ f2 ∧ g ∈ m x else g ∈ m x := by
  induction L generalizing m with
  | nil => exact Iff.rfl
  | cons t L ih =>
    rw [List.foldl_cons, ih]
    unfold setSlot
    by_cases h1 : x = t
    · have hm : x ∈ t :: L := by rw [h1]; exact List.mem_cons_self
      rw [if_pos h1, if_pos hm, h1]
      have e : g ∈ (m t).filter (· ≠ f2) ++ [f1] ↔ g = f1 ∨ g ≠ f2 ∧ g ∈ m t := by
        rw [List.mem_append, List.mem_filter, List.mem_singleton, or_comm, decide_eq_true_eq, and_comm]
      rw [e]
      split
      · constructor
        · rintro (h | ⟨h, h' | h'⟩)
          · exact .inl h
          · exact .inl h'
          · exact .inr h'
        · rintro (h | h)
          · exact .inl h
          · exact .inr ⟨h.1, .inr h⟩
      · exact Iff.rfl
    · rw [if_neg h1]
      by_cases h2 : x ∈ L
      · rw [if_pos h2, if_pos (List.mem_cons_of_mem _ h2)]
      · rw [if_neg h2, if_neg (by simp only [List.mem_cons, not_or]; exact ⟨h1, h2⟩)]

theorem loop_merge_count (f1 f2 : Nat) (hne : f1 ≠ f2) (L : List Nat) (m : Nat → List Nat) (x g : Nat) :
    (L.foldl (fun m t => setSlot m t ((m t).filter (· ≠ f2) ++ [f1])) m x).count g =
      if g = f1 then (m x).count f1 + L.count x else if g = f2 ∧ x ∈ L then 0 else (m x).count g := by
  induction L generalizing m with
  | nil => simp; intro h; rw [h]
  | cons t L ih =>
    rw [List.foldl_cons, ih]
    have hc1 : ∀ l : List Nat, (l.filter (· ≠ f2) ++ [f1]).count f1 = l.count f1 + 1 := by
      intro l
      rw [List.count_append, List.count_filter (by simpa using hne)]; simp
    have hc2 : ∀ l : List Nat, (l.filter (· ≠ f2) ++ [f1]).count f2 = 0 := by
      intro l
      rw [List.count_append, List.count_eq_zero.2 (by simp), List.count_eq_zero.2 (by simp; exact fun e => hne e.symm)]
    have hc3 : ∀ (l : List Nat), g ≠ f1 → g ≠ f2 → (l.filter (· ≠ f2) ++ [f1]).count g = l.count g := by
      intro l h1 h2
      rw [List.count_append, List.count_filter (by simpa using h2), show [f1].count g = 0 from List.count_eq_zero.2 (by simpa using h1)]; rfl
    unfold setSlot
    by_cases h1 : x = t
    · subst h1
      rw [if_pos rfl, List.count_cons_self]
      by_cases hg : g = f1
      · rw [if_pos hg, if_pos hg, hc1]; omega
      · rw [if_neg hg, if_neg hg]
        by_cases hg2 : g = f2
        · have hx : g = f2 ∧ x ∈ x :: L := ⟨hg2, List.mem_cons_self⟩
          rw [if_pos hx]
          split
          · rfl
          · rw [hg2]; exact hc2 _
        · rw [if_neg (fun e => hg2 e.1), if_neg (fun e => hg2 e.1)]
          exact hc3 _ hg hg2
    · rw [if_neg h1, List.count_cons_of_ne (Ne.symm h1)]
      have : x ∈ t :: L ↔ x ∈ L := by simp only [List.mem_cons, h1, false_or]
      simp only [this]

/-- **C56**, many to many: after any sequence of calls without undefined behaviour `f` lists `t` exactly when `t` lists `f`. What is missing: undefined
behaviour in `merge_relations` if the lists are not in the order of their addresses (`C56_fails_for_unsorted_merge`). -/
theorem C56_many_to_many_partial (cs : List ListCall) (s : ManyRel) (hs : ManyRel.calls {} cs = .ok s) (f t : Nat) : t ∈ s.to f ↔ f ∈ s.from_ t := by
  have main : ∀ (cs : List ListCall) (s s' : ManyRel), (∀ f t, t ∈ s.to f ↔ f ∈ s.from_ t) → s.calls cs = .ok s' → ∀ f t, t ∈ s'.to f ↔ f ∈ s'.from_ t := by
    intro cs
    induction cs with
    | nil => intro s s' h hs; injection hs with hs; rw [← hs]; exact h
    | cons c cs ih =>
      intro s s' h hs
      rw [ManyRel.calls] at hs
      cases hc : s.call c with
      | error e => rw [hc] at hs; cases hs
      | ok s1 =>
        rw [hc] at hs
        refine ih s1 s' ?_ hs
        clear ih hs
        cases c with
        | add f t =>
          simp only [ManyRel.call] at hc
          split at hc
          · cases hc
          · injection hc with hc
            subst hc
            intro g u
            simp only [ManyRel.add, setSlot]
            by_cases e1 : g = f
            · by_cases e2 : u = t
              · rw [if_pos e1, if_pos e2, e1, e2]; simp
              · rw [if_pos e1, if_neg e2, e1, List.mem_append, h f u]; simp [e2]
            · by_cases e2 : u = t
              · rw [if_neg e1, if_pos e2, e2, List.mem_append, h g t]; simp [e1]
              · rw [if_neg e1, if_neg e2]; exact h g u
        | remove f t =>
          simp only [ManyRel.call] at hc
          split at hc
          · cases hc
          · injection hc with hc
            subst hc
            intro g u
            simp only [ManyRel.remove, setSlot]
            by_cases e1 : g = f
            · by_cases e2 : u = t
              · rw [if_pos e1, if_pos e2, e1, e2]; simp
              · rw [if_pos e1, if_neg e2, e1, List.mem_filter, h f u]; simp [e2]
            · by_cases e2 : u = t
              · rw [if_neg e1, if_pos e2, e2, List.mem_filter, h g t]; simp [e1]
              · rw [if_neg e1, if_neg e2]; exact h g u
        | removeAll f =>
          simp only [ManyRel.call] at hc
          split at hc
          · cases hc
          · injection hc with hc
            subst hc
            intro g u
            simp only [ManyRel.removeAll, loop_remove, setSlot]
            by_cases e1 : g = f
            · rw [if_pos e1, e1]
              split
              · simp
              · rename_i hx; rw [h f u] at hx; simp [hx]
            · rw [if_neg e1, h g u]
              split
              · simp [e1]
              · exact Iff.rfl
        | merge f1 f2 =>
          simp only [ManyRel.call] at hc
          split at hc
          · cases hc
          · unfold ManyRel.merge at hc
            by_cases e : f1 = f2
            · rw [if_pos e] at hc
              injection hc with hc
              subst hc
              intro g u
              simp only [loop_merge, e]
              rw [h g u]
              split
              · rename_i hx
                rw [h f2 u] at hx
                constructor
                · intro hg
                  by_cases e3 : g = f2
                  · exact .inl e3
                  · exact .inr ⟨e3, hg⟩
                · rintro (hg | hg)
                  · rw [hg]; exact hx
                  · exact hg.2
              · exact Iff.rfl
            · rw [if_neg e] at hc
              cases hm : listMerge (s.to f1) (s.to f2) with
              | error e' => rw [hm] at hc; cases hc
              | ok l =>
                rw [hm] at hc
                injection hc with hc
                subst hc
                have hp := merge_mem hm
                intro g u
                simp only [loop_merge, setSlot]
                by_cases e2 : g = f2
                · rw [if_pos e2, e2]
                  split
                  · simp [Ne.symm e]
                  · rename_i hx; rw [h f2 u] at hx; simp [hx]
                · rw [if_neg e2]
                  by_cases e1 : g = f1
                  · rw [if_pos e1, hp.mem_iff, List.mem_append, h f1 u, e1]
                    split
                    · rename_i hx; simp [hx]
                    · rename_i hx; simp [hx]
                  · rw [if_neg e1, h g u]
                    split
                    · simp [e1, e2]
                    · exact Iff.rfl
  exact main cs {} s (by intro f t; simp) hs f t

/-- **C56**, many to many, with multiplicities: if no object is merged with itself, `f` lists `t` exactly as often as `t` lists `f`. What is missing: merging an
object with itself (`C56_fails_for_self_merge`), and undefined behaviour in `merge_relations`. -/
theorem C56_many_counts_partial (cs : List ListCall) (hself : ∀ f, .merge f f ∉ cs) (s : ManyRel) (hs : ManyRel.calls {} cs = .ok s) (f t : Nat) :
    (s.to f).count t = (s.from_ t).count f := by
  have main : ∀ (cs : List ListCall) (s s' : ManyRel), (∀ f, .merge f f ∉ cs) → (∀ f t, (s.to f).count t = (s.from_ t).count f) → s.calls cs = .ok s' →
      ∀ f t, (s'.to f).count t = (s'.from_ t).count f := by
    intro cs
    induction cs with
    | nil => intro s s' _ h hs; injection hs with hs; rw [← hs]; exact h
    | cons c cs ih =>
      intro s s' hself h hs
      rw [ManyRel.calls] at hs
      cases hc : s.call c with
      | error e => rw [hc] at hs; cases hs
      | ok s1 =>
        rw [hc] at hs
        refine ih s1 s' (fun f hm => hself f (List.mem_cons_of_mem _ hm)) ?_ hs
        clear ih hs
        cases c with
        | add f t =>
          simp only [ManyRel.call] at hc
          split at hc
          · cases hc
          · injection hc with hc
            subst hc
            intro g u
            simp only [ManyRel.add, setSlot]
            by_cases e1 : g = f
            · by_cases e2 : u = t
              · rw [if_pos e1, if_pos e2, e1, e2, List.count_append, List.count_append, h f t]; simp
              · rw [if_pos e1, if_neg e2, e1, List.count_append, h f u, show [t].count u = 0 from List.count_eq_zero.2 (by simpa using e2)]; rfl
            · by_cases e2 : u = t
              · rw [if_neg e1, if_pos e2, e2, List.count_append, h g t, show [f].count g = 0 from List.count_eq_zero.2 (by simpa using e1)]; rfl
              · rw [if_neg e1, if_neg e2]; exact h g u
        | remove f t =>
          simp only [ManyRel.call] at hc
          split at hc
          · cases hc
          · injection hc with hc
            subst hc
            intro g u
            simp only [ManyRel.remove, setSlot]
            by_cases e1 : g = f
            · by_cases e2 : u = t
              · rw [if_pos e1, if_pos e2, e1, e2, List.count_eq_zero.2 (by simp), List.count_eq_zero.2 (by simp)]
              · rw [if_pos e1, if_neg e2, e1, List.count_filter (by simpa using e2), h f u]
            · by_cases e2 : u = t
              · rw [if_neg e1, if_pos e2, e2, List.count_filter (by simpa using e1), h g t]
              · rw [if_neg e1, if_neg e2]; exact h g u
        | removeAll f =>
          simp only [ManyRel.call] at hc
          split at hc
          · cases hc
          · injection hc with hc
            subst hc
            intro g u
            simp only [ManyRel.removeAll, loop_remove, setSlot]
            by_cases e1 : g = f
            · rw [if_pos e1, e1, List.count_nil]
              split
              · rw [List.count_eq_zero.2 (by simp)]
              · rename_i hx; rw [← h f u, List.count_eq_zero.2 hx]
            · rw [if_neg e1, h g u]
              split
              · rw [List.count_filter (by simpa using e1)]
              · rfl
        | merge f1 f2 =>
          have e : f1 ≠ f2 := by
            rintro rfl; exact hself f1 List.mem_cons_self
          simp only [ManyRel.call] at hc
          split at hc
          · cases hc
          · unfold ManyRel.merge at hc
            rw [if_neg e] at hc
            cases hm : listMerge (s.to f1) (s.to f2) with
            | error e' => rw [hm] at hc; cases hc
            | ok l =>
              rw [hm] at hc
              injection hc with hc
              subst hc
              have hp := merge_mem hm
              intro g u
              simp only [loop_merge_count f1 f2 e, setSlot]
              by_cases e2 : g = f2
              · rw [if_pos e2, if_neg (fun e' => e (e'.symm.trans e2)), List.count_nil]
                split
                · rfl
                · rename_i hx
                  rw [e2, ← h f2 u, List.count_eq_zero.2]
                  intro hu; exact hx ⟨e2, hu⟩
              · rw [if_neg e2]
                by_cases e1 : g = f1
                · rw [if_pos e1, if_pos e1, hp.count_eq, List.count_append, h f1 u]
                · rw [if_neg e1, if_neg e1, if_neg (fun e' => e2 e'.1), h g u]
  exact main cs {} s hself (by intro f t; simp) hs f t

/-- **C56** fails for merging an object with itself: object 1 lists object 2 twice, but object 2 lists object 1 only once. -/
theorem C56_fails_for_self_merge : (ManyRel.calls {} [.add 1 2, .add 1 2, .merge 1 1]).toOption.map (fun s => (s.to 1, s.from_ 2)) = some ([2, 2], [1]) := by
  decide +kernel

/-- **C56** fails for merging objects whose relations were not added in the order of the addresses: the behaviour is undefined, as `std::list::merge` requires
sorted lists. It is defined just if both lists are in order. -/
theorem C56_fails_for_unsorted_merge :
    (∀ (s : ManyRel) (f1 f2 : Nat), f1 ≠ 0 → f2 ≠ 0 → f1 ≠ f2 →
      (s.call (.merge f1 f2) = .error .ub ↔ ¬ ((s.to f1).Pairwise (· ≤ ·) ∧ (s.to f2).Pairwise (· ≤ ·)))) ∧
    (∀ (s : FanRel) (f1 f2 : Nat), f1 ≠ 0 → f2 ≠ 0 → f1 ≠ f2 →
      (s.call (.merge f1 f2) = .error .ub ↔ ¬ ((s.to f1).Pairwise (· ≤ ·) ∧ (s.to f2).Pairwise (· ≤ ·)))) ∧
    (ManyRel.calls {} [.add 1 9, .add 1 8, .add 2 7, .merge 1 2]).toOption.isNone = true := by
  have key : ∀ a b : List Nat, (a.Pairwise (· ≤ ·) ∧ b.Pairwise (· ≤ ·)) ↔ (inAddrOrder a && inAddrOrder b) = true := by
    intro a b
    simp [inAddrOrder]
  refine ⟨fun s f1 f2 h1 h2 h => ?_, fun s f1 f2 h1 h2 h => ?_, by decide +kernel⟩
  · simp only [ManyRel.call, h1, h2, or_self, if_false, ManyRel.merge, if_neg h, listMerge, key]
    by_cases hk : (inAddrOrder (s.to f1) && inAddrOrder (s.to f2)) = true
    · simp [hk]
      exact fun h => nomatch h
    · simp only [if_neg hk]
      exact ⟨fun _ => hk, fun _ => rfl⟩
  · simp only [FanRel.call, h1, h2, or_self, if_false, FanRel.merge, if_neg h, listMerge, key]
    by_cases hk : (inAddrOrder (s.to f1) && inAddrOrder (s.to f2)) = true
    · simp [hk]
      exact fun h => nomatch h
    · simp only [if_neg hk]
      exact ⟨fun _ => hk, fun _ => rfl⟩

/-- For relations from one to many: an object is only added to `f` if it belongs to no other, and only removed from `f` if it belongs to no other. -/
def OwnCalls (s : FanRel) : List ListCall → Prop
  | [] => True
  | c :: cs => (match c with
      | .add f t => s.from_ t = 0 ∨ s.from_ t = f
      | .remove f t => s.from_ t = 0 ∨ s.from_ t = f
      | _ => True) ∧ ∀ s', s.call c = .ok s' → OwnCalls s' cs

theorem loop_fan (v : Nat) (L : List Nat) (m : Nat → Nat) (x : Nat) : L.foldl (fun m t => setSlot m t v) m x = if x ∈ L then v else m x := by
  induction L generalizing m with
  | nil => rfl
  | cons t L ih =>
    rw [List.foldl_cons, ih]
    unfold setSlot
    by_cases h1 : x = t
    · have hm : x ∈ t :: L := by rw [h1]; exact List.mem_cons_self
      rw [if_pos h1, if_pos hm]; split <;> rfl
    · rw [if_neg h1]
      by_cases h2 : x ∈ L
      · rw [if_pos h2, if_pos (List.mem_cons_of_mem _ h2)]
      · rw [if_neg h2, if_neg (by simp only [List.mem_cons, not_or]; exact ⟨h1, h2⟩)]

theorem setSlot_twice {α : Type} (m : Nat → α) (k : Nat) (v w : α) : setSlot (setSlot m k v) k w = setSlot m k w := by
  funext x; unfold setSlot; split <;> rfl

/-- **C56**, one to many: after any sequence of calls without undefined behaviour that adds and removes only objects that belong to no other object, `f` lists
`t` exactly when `t` refers back to `f`. What is missing: objects that belong to another object (`C56_fails_for_second_parent`, `C56_fails_for_wrong_remove`). -/
theorem C56_one_to_many_partial (cs : List ListCall) (hown : OwnCalls {} cs) (s : FanRel) (hs : FanRel.calls {} cs = .ok s) (f t : Nat) (hf : f ≠ 0) :
    t ∈ s.to f ↔ s.from_ t = f := by
  have main : ∀ (cs : List ListCall) (s s' : FanRel), (∀ f t, f ≠ 0 → (t ∈ s.to f ↔ s.from_ t = f)) → OwnCalls s cs → s.calls cs = .ok s' →
      ∀ f t, f ≠ 0 → (t ∈ s'.to f ↔ s'.from_ t = f) := by
    intro cs
    induction cs with
    | nil => intro s s' h _ hs; injection hs with hs; rw [← hs]; exact h
    | cons c cs ih =>
      intro s s' h hown hs
      rw [FanRel.calls] at hs
      cases hc : s.call c with
      | error e => rw [hc] at hs; cases hs
      | ok s1 =>
        rw [hc] at hs
        refine ih s1 s' ?_ (hown.2 s1 hc) hs
        have hcond := hown.1
        clear ih hs hown
        cases c with
        | add f t =>
          simp only [FanRel.call] at hc
          split at hc
          · cases hc
          · rename_i hne
            injection hc with hc
            subst hc
            intro g u hg
            simp only [FanRel.add, setSlot]
            by_cases e1 : g = f
            · by_cases e2 : u = t
              · rw [if_pos e1, if_pos e2, e1, e2]; simp
              · rw [if_pos e1, if_neg e2, e1, List.mem_append, h f u (e1 ▸ hg)]; simp [e2]
            · by_cases e2 : u = t
              · rw [if_neg e1, if_pos e2, e2, h g t hg]
                constructor
                · intro e
                  rcases hcond with h' | h'
                  · exact absurd (e.symm.trans h') hg
                  · exact absurd (e.symm.trans h') e1
                · intro e; exact absurd e.symm e1
              · rw [if_neg e1, if_neg e2]; exact h g u hg
        | remove f t =>
          simp only [FanRel.call] at hc
          split at hc
          · cases hc
          · rename_i hne
            injection hc with hc
            subst hc
            intro g u hg
            simp only [FanRel.remove, setSlot]
            by_cases e1 : g = f
            · by_cases e2 : u = t
              · rw [if_pos e1, if_pos e2, e1, e2]
                simp; exact fun e => hg (e1.trans e.symm)
              · rw [if_pos e1, if_neg e2, e1, List.mem_filter, h f u (e1 ▸ hg)]; simp [e2]
            · by_cases e2 : u = t
              · rw [if_neg e1, if_pos e2, e2, h g t hg]
                constructor
                · intro e
                  rcases hcond with h' | h'
                  · exact absurd (e.symm.trans h') hg
                  · exact absurd (e.symm.trans h') e1
                · intro e; exact absurd e.symm hg
              · rw [if_neg e1, if_neg e2]; exact h g u hg
        | removeAll f =>
          simp only [FanRel.call] at hc
          split at hc
          · cases hc
          · rename_i hne
            injection hc with hc
            subst hc
            intro g u hg
            simp only [FanRel.removeAll, loop_fan, setSlot]
            by_cases e1 : g = f
            · rw [if_pos e1, e1]
              split
              · simp; exact fun e => hg (e1.trans e.symm)
              · rename_i hx; rw [h f u hne] at hx; simp [hx]
            · rw [if_neg e1, h g u hg]
              split
              · rename_i hx
                rw [h f u hne] at hx
                rw [hx]
                exact ⟨fun e => absurd e.symm e1, fun e => absurd e.symm hg⟩
              · exact Iff.rfl
        | merge f1 f2 =>
          simp only [FanRel.call] at hc
          split at hc
          · cases hc
          · rename_i hne
            have h2 : f2 ≠ 0 := fun e => hne (.inr e)
            have h1 : f1 ≠ 0 := fun e => hne (.inl e)
            unfold FanRel.merge at hc
            simp only [setSlot_twice] at hc
            by_cases e : f1 = f2
            · rw [if_pos e] at hc
              injection hc with hc
              subst hc
              intro g u hg
              simp only [loop_fan, e]
              rw [h g u hg]
              split
              · rename_i hx
                rw [h f2 u h2] at hx
                rw [hx]
              · exact Iff.rfl
            · rw [if_neg e] at hc
              cases hm : listMerge (s.to f1) (s.to f2) with
              | error e' => rw [hm] at hc; cases hc
              | ok l =>
                rw [hm] at hc
                injection hc with hc
                subst hc
                have hp := merge_mem hm
                intro g u hg
                simp only [loop_fan, setSlot]
                by_cases e2 : g = f2
                · rw [if_pos e2, e2]
                  split
                  · simp [e]
                  · rename_i hx; rw [h f2 u h2] at hx; simp [hx]
                · rw [if_neg e2]
                  by_cases e1 : g = f1
                  · rw [if_pos e1, hp.mem_iff, List.mem_append, h f1 u h1, e1]
                    split
                    · rename_i hx; simp [hx]
                    · rename_i hx; simp [hx]
                  · rw [if_neg e1, h g u hg]
                    split
                    · rename_i hx
                      rw [h f2 u h2] at hx
                      rw [hx]
                      exact ⟨fun e => absurd e.symm e2, fun e => absurd e.symm e1⟩
                    · exact Iff.rfl
  exact main cs {} s (by intro f t hf; simp; exact fun e => hf e.symm) hown hs f t hf

/-- **C56** fails if an object is added to a second one: both list it, and it refers to the second one only. -/
theorem C56_fails_for_second_parent :
    (FanRel.calls {} [.add 1 9, .add 2 9]).toOption.map (fun s => (s.to 1, s.to 2, s.from_ 9)) = some ([9], [9], 2) := by decide +kernel

/-- **C56** fails if an object is removed from one that does not list it: it loses its relation to the one that does. -/
theorem C56_fails_for_wrong_remove :
    (FanRel.calls {} [.add 1 9, .remove 2 9]).toOption.map (fun s => (s.to 1, s.from_ 9)) = some ([9], 0) := by decide +kernel

/-- A case for the theorems about lists, and one for relations from one to one. -/
def relCalls : List ListCall := [.add 1 7, .add 1 9, .add 2 8, .merge 1 2, .remove 1 9, .add 3 9, .removeAll 3]

example : (ManyRel.calls {} relCalls).toOption.map (fun s => (s.to 1, s.to 2, s.from_ 8, s.from_ 9)) = some ([7, 8], [], [1], []) ∧
    (FanRel.calls {} relCalls).toOption.map (fun s => (s.to 1, s.to 2, s.from_ 8, s.from_ 9)) = some ([7, 8], [], 1, 0) := by decide +kernel

example : OwnCalls {} [.add 1 7, .add 2 8] := by
  refine ⟨.inl rfl, ?_⟩
  intro s hs
  simp only [FanRel.call] at hs
  injection hs with hs
  subst hs
  exact ⟨.inl rfl, fun _ _ => trivial⟩

example : (OneRel.calls {} [.set 1 7, .set 2 7, .set 2 8, .set 3 7, .unset 3]).toOption.map (fun s => (s.to 1, s.to 2, s.to 3, s.from_ 7, s.from_ 8)) = some (0, 8, 0, 0, 2) := by
  decide +kernel

end Props
