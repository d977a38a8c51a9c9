import Verif.Lcio.MemoryLemmas
import Verif.Spec.Elements
/-
C119: the objects in the collections of an event are deleted once.
-/
namespace Props
open Sio Lcio Spec

/-- The objects that are added to a collection, in order. -/
def objectsAdded (col : Nat) : List ElemCall → List Nat
  | [] => []
  | .addElement c x :: cs => if c = col then x :: objectsAdded col cs else objectsAdded col cs
  | _ :: cs => objectsAdded col cs

theorem deleteObjects_eq (L : List Nat) : ∀ dead : List Nat, dead.Nodup →
    deleteObjects L dead = if (dead ++ L.filter (· ≠ 0)).Nodup then .ok (dead ++ L.filter (· ≠ 0)) else .error .ub := by
  induction L with
  | nil => intro dead h; simp [deleteObjects, h]
  | cons x L ih =>
    intro dead h
    unfold deleteObjects
    by_cases hx : x = 0
    · rw [if_pos hx, ih dead h, List.filter_cons_of_neg (by simp [hx])]
    · rw [if_neg hx, List.filter_cons_of_pos (by simp [hx])]
      by_cases hd : x ∈ dead
      · rw [if_pos (List.contains_iff_mem.2 hd), if_neg]
        intro hn
        exact (List.nodup_append.1 hn).2.2 x hd x (by simp) rfl
      · rw [if_neg (fun h' => hd (List.contains_iff_mem.1 h')), ih (dead ++ [x])]
        · simp only [List.append_assoc, List.singleton_append]
        · rw [List.nodup_append]
          refine ⟨h, by simp, ?_⟩
          intro a ha b hb e
          rw [List.mem_singleton] at hb
          exact hd (hb ▸ e ▸ ha)

theorem destroyLoop_nodup (no : List Nat) (m : List (Str × Nat)) : ∀ (dead l : List Nat), dead.Nodup → destroyLoop no m dead = .ok l → l.Nodup := by
  induction m with
  | nil => intro dead l h e; cases e; exact h
  | cons x m ih =>
    intro dead l h e
    unfold destroyLoop at e
    split at e
    · exact ih dead l h e
    · split at e
      · cases e
      · rename_i hd
        refine ih _ l ?_ e
        rw [List.nodup_append]
        refine ⟨h, by simp, ?_⟩
        intro a ha b hb e
        rw [List.mem_singleton] at hb
        exact hd (List.contains_iff_mem.2 (hb ▸ e ▸ ha))

theorem subset_bit (f : W32) : (f ||| 0x10000#32).getLsbD 18 = f.getLsbD 18 ∧ (f ||| 0x40000#32).getLsbD 18 = true ∧ (f &&& ~~~0x40000#32).getLsbD 18 = false := by
  refine ⟨?_, ?_, ?_⟩
  · rw [BitVec.getLsbD_or, show (0x10000#32).getLsbD 18 = false by decide, Bool.or_false]
  · rw [BitVec.getLsbD_or, show (0x40000#32).getLsbD 18 = true by decide, Bool.or_true]
  · rw [BitVec.getLsbD_and, show (~~~0x40000#32).getLsbD 18 = false by decide, Bool.and_false]

theorem call_elems (w w1 : ElemWorld) (a : ElemCall) (h : w.call a = .ok w1) (c : Nat) :
    (w1.cols c).elems = elemsAfter c (w.cols c).elems [a] ∧ (w1.cols c).isSubset = subsetAfter c (w.cols c).isSubset [a] := by
  cases a with
  | onEvent ec =>
    simp only [ElemWorld.call] at h
    split at h
    · cases h
      simp only [ElemWorld.change, elemsAfter, subsetAfter, ElemCol.isSubset]
      split
      · exact ⟨rfl, (subset_bit _).1⟩
      · exact ⟨rfl, rfl⟩
    · cases h; exact ⟨rfl, rfl⟩
  | addElement col x =>
    cases h
    simp only [ElemWorld.change, elemsAfter, subsetAfter]
    by_cases hc : c = col
    · subst hc; simp [ElemCol.isSubset]
    · have : ¬ col = c := fun e => hc e.symm
      simp [hc, this]
  | removeElementAt col k =>
    simp only [ElemWorld.call] at h
    split at h
    · cases h
      simp only [ElemWorld.change, elemsAfter, subsetAfter]
      by_cases hc : c = col
      · subst hc; simp [ElemCol.isSubset, List.eraseIdx_eq_take_drop_succ]
      · have : ¬ col = c := fun e => hc e.symm
        simp [hc, this]
    · cases h
  | setSubset col v =>
    cases h
    simp only [ElemWorld.change, elemsAfter, subsetAfter]
    by_cases hc : c = col
    · subst hc
      simp only [if_true, ElemCol.isSubset, true_and]
      cases v
      · simp only [Bool.false_eq_true, if_false]; exact (subset_bit _).2.2
      · simp only [if_true]; exact (subset_bit _).2.1
    · have : ¬ col = c := fun e => hc e.symm
      simp [hc, this]
  | setFlag col v =>
    cases h
    simp only [ElemWorld.change, elemsAfter, subsetAfter]
    by_cases hc : c = col
    · subst hc; simp [ElemCol.isSubset]
    · have : ¬ col = c := fun e => hc e.symm
      simp [hc, this]

theorem elemsAfter_cons (c : Nat) (a : ElemCall) (cs : List ElemCall) (l : List Nat) (b : Bool) :
    elemsAfter c l (a :: cs) = elemsAfter c (elemsAfter c l [a]) cs ∧ subsetAfter c b (a :: cs) = subsetAfter c (subsetAfter c b [a]) cs := by
  cases a <;> exact ⟨rfl, rfl⟩

theorem calls_elems (cs : List ElemCall) : ∀ (w w' : ElemWorld), w.calls cs = .ok w' → ∀ c,
    (w'.cols c).elems = elemsAfter c (w.cols c).elems cs ∧ (w'.cols c).isSubset = subsetAfter c (w.cols c).isSubset cs := by
  induction cs with
  | nil => intro w w' h c; cases h; exact ⟨rfl, rfl⟩
  | cons a cs ih =>
    intro w w' h c
    unfold ElemWorld.calls at h
    cases ha : w.call a with
    | error e => rw [ha] at h; cases h
    | ok w1 =>
      rw [ha] at h
      obtain ⟨i1, i2⟩ := ih w1 w' h c
      obtain ⟨k1, k2⟩ := call_elems w w1 a ha c
      obtain ⟨e1, e2⟩ := elemsAfter_cons c a cs (w.cols c).elems (w.cols c).isSubset
      rw [e1, e2, ← k1, ← k2]
      exact ⟨i1, i2⟩

theorem elems_sublist (cs : List ElemCall) : ∀ (w w' : ElemWorld), w.calls cs = .ok w' → ∀ c, ((w'.cols c).elems).Sublist ((w.cols c).elems ++ objectsAdded c cs) := by
  induction cs with
  | nil => intro w w' h c; cases h; simp [objectsAdded]
  | cons a cs ih =>
    intro w w' h c
    unfold ElemWorld.calls at h
    cases ha : w.call a with
    | error e => rw [ha] at h; cases h
    | ok w1 =>
      rw [ha] at h
      have i := ih w1 w' h c
      cases a with
      | onEvent ec =>
        have : (w1.cols c).elems = (w.cols c).elems := by
          simp only [ElemWorld.call] at ha
          split at ha
          · cases ha
            simp only [ElemWorld.change]
            split <;> rfl
          · cases ha; rfl
        rw [this] at i; exact i
      | addElement col x =>
        cases ha
        simp only [ElemWorld.change] at i
        by_cases hc : c = col
        · subst hc
          simpa [objectsAdded] using i
        · have : ¬ col = c := fun e => hc e.symm
          simpa [objectsAdded, hc, this] using i
      | removeElementAt col k =>
        simp only [ElemWorld.call] at ha
        split at ha
        · cases ha
          simp only [ElemWorld.change] at i
          by_cases hc : c = col
          · rw [if_pos hc] at i
            exact i.trans ((List.eraseIdx_sublist _ _).append_right _)
          · rw [if_neg hc] at i; exact i
        · cases ha
      | setSubset col v =>
        cases ha
        simp only [ElemWorld.change] at i
        by_cases hc : c = col
        · rw [if_pos hc] at i; exact i
        · rw [if_neg hc] at i; exact i
      | setFlag col v =>
        cases ha
        simp only [ElemWorld.change] at i
        by_cases hc : c = col
        · rw [if_pos hc] at i; exact i
        · rw [if_neg hc] at i; exact i

theorem added_given (S : Nat → Bool) (c : Nat) (hS : S c = false) (cs : List ElemCall) : ((objectsAdded c cs).filter (· ≠ 0)).Sublist (objectsGiven S cs) := by
  induction cs with
  | nil => exact List.Sublist.refl _
  | cons a cs ih =>
    cases a with
    | addElement d x =>
      simp only [objectsAdded, objectsGiven]
      by_cases hd : d = c
      · subst hd
        rw [if_pos rfl, hS]
        by_cases hx : x = 0
        · simpa [hx] using ih
        · simpa [hx] using ih
      · rw [if_neg hd]
        split
        · exact ih
        · exact ih.cons _
    | onEvent _ => exact ih
    | removeElementAt _ _ => exact ih
    | setSubset _ _ => exact ih
    | setFlag _ _ => exact ih

theorem added_once (S : Nat → Bool) (c d x : Nat) (hc : S c = false) (hd : S d = false) (hx : x ≠ 0) (cs : List ElemCall) (hn : (objectsGiven S cs).Nodup)
    (h1 : x ∈ objectsAdded c cs) (h2 : x ∈ objectsAdded d cs) : c = d := by
  have given : ∀ c, S c = false → ∀ cs, x ∈ objectsAdded c cs → x ∈ objectsGiven S cs := fun c hc cs h =>
    (added_given S c hc cs).subset (List.mem_filter.2 ⟨h, by simpa using hx⟩)
  induction cs with
  | nil => cases h1
  | cons a cs ih =>
    cases a with
    | addElement e y =>
      simp only [objectsAdded, objectsGiven] at h1 h2 hn
      have hrest : (objectsGiven S cs).Nodup ∧ (S e = false → y = x → x ∉ objectsGiven S cs) := by
        split at hn
        · rename_i hor
          refine ⟨hn, fun hs hy => ?_⟩
          rw [hs, hy] at hor
          simp [hx] at hor
        · obtain ⟨n1, n2⟩ := List.nodup_cons.1 hn
          exact ⟨n2, fun _ hy => hy ▸ n1⟩
      by_cases e1 : e = c <;> by_cases e2 : e = d
      · rw [← e1, ← e2]
      · rw [if_neg e2] at h2
        rw [if_pos e1] at h1
        rcases List.mem_cons.1 h1 with h1 | h1
        · exact absurd (given d hd cs h2) (hrest.2 (e1 ▸ hc) h1.symm)
        · exact ih hrest.1 h1 h2
      · rw [if_neg e1] at h1
        rw [if_pos e2] at h2
        rcases List.mem_cons.1 h2 with h2 | h2
        · exact absurd (given c hc cs h1) (hrest.2 (e2 ▸ hd) h2.symm)
        · exact ih hrest.1 h1 h2
      · rw [if_neg e1] at h1; rw [if_neg e2] at h2
        exact ih hrest.1 h1 h2
    | onEvent _ => exact ih hn h1 h2
    | removeElementAt _ _ => exact ih hn h1 h2
    | setSubset _ _ => exact ih hn h1 h2
    | setFlag _ _ => exact ih hn h1 h2

theorem flat_nodup (f : Nat → List Nat) (l : List Nat) (hl : l.Nodup) (h1 : ∀ c ∈ l, (f c).Nodup) (h2 : ∀ c ∈ l, ∀ d ∈ l, ∀ x, x ∈ f c → x ∈ f d → c = d) :
    (l.flatMap f).Nodup := by
  induction l with
  | nil => simp
  | cons c l ih =>
    obtain ⟨n1, n2⟩ := List.nodup_cons.1 hl
    rw [List.flatMap_cons, List.nodup_append]
    refine ⟨h1 c (by simp), ih n2 (fun d hd => h1 d (by simp [hd])) (fun d hd e he => h2 d (by simp [hd]) e (by simp [he])), ?_⟩
    intro a ha b hb e
    obtain ⟨d, hd, hb⟩ := List.mem_flatMap.1 hb
    exact n1 (h2 c (by simp) d (by simp [hd]) a ha (e ▸ hb) ▸ hd)

theorem deleted_once (cs : List ElemCall) (w : ElemWorld) (hw : ElemWorld.calls {} cs = .ok w) (S : Nat → Bool)
    (hS : ∀ c, S c = true → (w.cols c).isSubset = true) (hone : (objectsGiven S cs).Nodup) (l : List Nat) (hl : w.ev.destroy = .ok l) :
    ∃ objs, w.destroy = .ok objs ∧ objs.Nodup ∧ ∀ x, x ∈ objs ↔ x ≠ 0 ∧ ∃ c ∈ l, (w.cols c).isSubset = false ∧ x ∈ (w.cols c).elems := by
  have hsub : ∀ c, (w.cols c).elems.Sublist (objectsAdded c cs) := fun c => by simpa using elems_sublist cs {} w hw c
  have hnot : ∀ c, (w.cols c).isSubset = false → S c = false := fun c h => by
    cases hc : S c with
    | false => rfl
    | true => rw [hS c hc] at h; cases h
  have hlN : l.Nodup := destroyLoop_nodup _ _ [] l List.nodup_nil hl
  have hflat : ((l.flatMap fun c => if (w.cols c).isSubset then [] else (w.cols c).elems).filter (· ≠ 0)) =
      l.flatMap fun c => (if (w.cols c).isSubset then [] else (w.cols c).elems).filter (· ≠ 0) := by
    rw [List.filter_flatMap]
  have hnd : ((l.flatMap fun c => if (w.cols c).isSubset then [] else (w.cols c).elems).filter (· ≠ 0)).Nodup := by
    rw [hflat]
    refine flat_nodup _ l hlN ?_ ?_
    · intro c _
      cases hs : (w.cols c).isSubset with
      | true => simp
      | false =>
        simp only [Bool.false_eq_true, if_false]
        exact hone.sublist (((hsub c).filter _).trans (added_given S c (hnot c hs) cs))
    · intro c _ d _ x hx hy
      rw [List.mem_filter] at hx hy
      have hx0 : x ≠ 0 := by simpa using hx.2
      cases hs : (w.cols c).isSubset with
      | true => rw [hs] at hx; simp at hx
      | false =>
        cases ht : (w.cols d).isSubset with
        | true => rw [ht] at hy; simp at hy
        | false =>
          rw [hs] at hx; rw [ht] at hy
          exact added_once S c d x (hnot c hs) (hnot d ht) hx0 cs hone ((hsub c).subset (by simpa using hx.1)) ((hsub d).subset (by simpa using hy.1))
  refine ⟨_, ?_, hnd, ?_⟩
  · unfold ElemWorld.destroy
    simp only [hl]
    rw [deleteObjects_eq _ [] List.nodup_nil, List.nil_append, if_pos hnd]
  · intro x
    simp only [List.mem_filter, List.mem_flatMap, ne_eq, decide_not, Bool.not_eq_true', decide_eq_false_iff_not]
    constructor
    · rintro ⟨⟨c, hc, hx⟩, h0⟩
      cases hs : (w.cols c).isSubset with
      | true => rw [hs] at hx; simp at hx
      | false => rw [hs] at hx; exact ⟨h0, c, hc, hs, by simpa using hx⟩
    · rintro ⟨h0, c, hc, hs, hx⟩
      exact ⟨⟨c, hc, by rw [hs]; simpa using hx⟩, h0⟩

/-- **C119** (proved part): let `S` be some of the collections, all of which are subset collections in the end, and let each object be added at most once to a
collection that is not in `S`. Then the destructor of the event, if it deletes each collection once (C63), deletes no object twice, and just the objects that
are in the collections it deletes and that are not subsets. -/
theorem C119_deleted_once_partial (cs : List ElemCall) (w : ElemWorld) (hw : ElemWorld.calls {} cs = .ok w) (S : Nat → Bool)
    (hS : ∀ c, S c = true → subsetAfter c false cs = true) (hone : (objectsGiven S cs).Nodup) (l : List Nat) (hl : w.ev.destroy = .ok l) :
    ∃ objs, w.destroy = .ok objs ∧ objs.Nodup ∧ ∀ x, x ∈ objs ↔ x ≠ 0 ∧ ∃ c ∈ l, subsetAfter c false cs = false ∧ x ∈ elemsAfter c [] cs := by
  have h := calls_elems cs {} w hw
  have h1 : ∀ c, (w.cols c).elems = elemsAfter c [] cs := fun c => (h c).1
  have h2 : ∀ c, (w.cols c).isSubset = subsetAfter c false cs := fun c => by
    rw [(h c).2, show (({} : ElemWorld).cols c).isSubset = false from (show (0 : W32).getLsbD 18 = false by decide)]
  obtain ⟨objs, o1, o2, o3⟩ := deleted_once cs w hw S (fun c hc => by rw [h2]; exact hS c hc) hone l hl
  refine ⟨objs, o1, o2, fun x => ?_⟩
  rw [o3 x]
  simp only [h1, h2]

theorem two_owners (w : ElemWorld) (l : List Nat) (hl : w.ev.destroy = .ok l) (c d x : Nat) (hc : c ∈ l) (hd : d ∈ l) (hcd : c ≠ d) (hx : x ≠ 0)
    (h1 : (w.cols c).isSubset = false ∧ x ∈ (w.cols c).elems) (h2 : (w.cols d).isSubset = false ∧ x ∈ (w.cols d).elems) : w.destroy = .error .ub := by
  unfold ElemWorld.destroy
  simp only [hl]
  rw [deleteObjects_eq _ [] List.nodup_nil, List.nil_append, if_neg]
  rw [List.filter_flatMap]
  have main : ∀ l : List Nat, c ∈ l → d ∈ l → ¬ (l.flatMap fun c => (if (w.cols c).isSubset then [] else (w.cols c).elems).filter (· ≠ 0)).Nodup := by
    have hin : ∀ c, (w.cols c).isSubset = false ∧ x ∈ (w.cols c).elems → x ∈ (if (w.cols c).isSubset then [] else (w.cols c).elems).filter (· ≠ 0) := by
      rintro c ⟨hs, hm⟩
      rw [hs, List.mem_filter]
      exact ⟨by simpa using hm, by simpa using hx⟩
    intro l
    induction l with
    | nil => intro h; cases h
    | cons a l ih =>
      intro m1 m2 hn
      rw [List.flatMap_cons, List.nodup_append] at hn
      obtain ⟨_, n2, n3⟩ := hn
      rcases List.mem_cons.1 m1 with e1 | m1 <;> rcases List.mem_cons.1 m2 with e2 | m2
      · exact hcd (e1.trans e2.symm)
      · exact n3 x (e1 ▸ hin c h1) x (List.mem_flatMap.2 ⟨d, m2, hin d h2⟩) rfl
      · exact n3 x (e2 ▸ hin d h2) x (List.mem_flatMap.2 ⟨c, m1, hin c h1⟩) rfl
      · exact ih m1 m2 n2
  exact main l hc hd

/-- **C119** fails: an object that is in two collections of the event that are not subsets is deleted twice, whatever the calls were. -/
theorem C119_fails_two_owners (cs : List ElemCall) (w : ElemWorld) (hw : ElemWorld.calls {} cs = .ok w) (l : List Nat) (hl : w.ev.destroy = .ok l)
    (c d x : Nat) (hc : c ∈ l) (hd : d ∈ l) (hcd : c ≠ d) (hx : x ≠ 0)
    (h1 : subsetAfter c false cs = false ∧ x ∈ elemsAfter c [] cs) (h2 : subsetAfter d false cs = false ∧ x ∈ elemsAfter d [] cs) : w.destroy = .error .ub := by
  have h := calls_elems cs {} w hw
  have e1 : ∀ c, (w.cols c).elems = elemsAfter c [] cs := fun c => (h c).1
  have e2 : ∀ c, (w.cols c).isSubset = subsetAfter c false cs := fun c => by
    rw [(h c).2, show (({} : ElemWorld).cols c).isSubset = false from (show (0 : W32).getLsbD 18 = false by decide)]
  exact two_owners w l hl c d x hc hd hcd hx (by rw [e1, e2]; exact h1) (by rw [e1, e2]; exact h2)

/-- A collection of hits and a subset collection with one of them, both in the event; the flag word of the latter is set to `flag` after `setSubset`. -/
def subsetThenFlag (flag : W32) : List ElemCall :=
  [.addElement 1 10, .addElement 1 11, .setSubset 2 true, .setFlag 2 flag, .addElement 2 11, .onEvent (.add 1 (str "Hits")), .onEvent (.add 2 (str "Good"))]

/-- **C119** fails: `setFlag` replaces the whole flag word, and a subset collection whose flags are set afterwards (any flags without the subset bit) is no
subset any more, so that its objects are deleted twice. -/
theorem C119_fails_flag (flag : W32) (hf : flag.getLsbD 18 = false) : ∃ w, ElemWorld.calls {} (subsetThenFlag flag) = .ok w ∧ w.destroy = .error .ub := by
  refine ⟨_, rfl, ?_⟩
  refine two_owners _ [2, 1] ?_ 2 1 11 (by simp) (by simp) (by decide) (by decide) ⟨?_, ?_⟩ ⟨?_, ?_⟩
  · rfl
  · exact hf
  · exact (show (11 : Nat) ∈ [11] by decide)
  · exact (show (0 : W32).getLsbD 18 = false by decide)
  · exact (show (11 : Nat) ∈ [10, 11] by decide)

/-- **C119** fails: an object that is removed from its collection is not deleted. -/
theorem C119_fails_removed : ∃ w, ElemWorld.calls {} [.addElement 1 10, .addElement 1 11, .onEvent (.add 1 (str "Hits")), .removeElementAt 1 0] = .ok w ∧
    w.destroy = .ok [11] := ⟨_, rfl, by decide +kernel⟩

-- the same with the subset bit among the flags: each hit is deleted once
example : ∃ w, ElemWorld.calls {} (subsetThenFlag 0x80040000#32) = .ok w ∧ (∀ c, (c == 2) = true → subsetAfter c false (subsetThenFlag 0x80040000#32) = true) ∧
    (objectsGiven (· == 2) (subsetThenFlag 0x80040000#32)).Nodup ∧ w.ev.destroy = .ok [2, 1] ∧ w.destroy = .ok [10, 11] := by
  refine ⟨_, rfl, ?_, by decide, by decide +kernel, by decide +kernel⟩
  intro c hc
  rw [beq_iff_eq] at hc
  subst hc
  decide +kernel

end Props
