import Verif.Spec.ParamMap
import Verif.Util.PidLemmas
import Verif.Lcio.MemoryLemmas
/-
C81: maps from names to numbers as parameters of collections.
-/
namespace Props
open Sio Util Spec Lcio

theorem insert_ordered (k : Str) (v : W32) : ∀ (m : List (Str × W32)), Ordered strLt m → Ordered strLt (omInsert strLt k v m) ∧ ∀ e ∈ omInsert strLt k v m, e = (k, v) ∨ e ∈ m := by
  intro m
  induction m with
  | nil => intro _; exact ⟨by simp [omInsert, Ordered], by simp [omInsert]⟩
  | cons e m ih =>
    intro hm
    obtain ⟨a, b⟩ := e
    have hm' := List.pairwise_cons.1 hm
    obtain ⟨i1, i2⟩ := ih hm'.2
    unfold omInsert
    split
    · rename_i h1
      refine ⟨List.pairwise_cons.2 ⟨fun x hx => ?_, hm⟩, by simp⟩
      rcases List.mem_cons.1 hx with rfl | hx
      · exact h1
      · exact strWeak.trans _ _ _ h1 (hm'.1 x hx)
    · split
      · rename_i h2
        refine ⟨List.pairwise_cons.2 ⟨fun x hx => ?_, i1⟩, fun x hx => ?_⟩
        · rcases i2 x hx with rfl | hx
          · exact h2
          · exact hm'.1 x hx
        · rcases List.mem_cons.1 hx with rfl | hx
          · right; exact List.mem_cons_self
          · rcases i2 x hx with rfl | hx
            · left; rfl
            · right; exact List.mem_cons_of_mem _ hx
      · exact ⟨hm, fun x hx => Or.inr hx⟩

theorem insert_find (k k' : Str) (v : W32) (m : List (Str × W32)) (hm : Ordered strLt m) :
    omFind strLt k' (omInsert strLt k v m) = if k' = k then some ((omFind strLt k m).getD v) else omFind strLt k' m := by
  cases hf : omFind strLt k m with
  | none => rw [insert_new strWeak k v m hf, find_assign_str]; rfl
  | some w =>
    have hsame : omInsert strLt k v m = m := by
      have hmem := mem_of_find_str hf
      clear hf
      induction m with
      | nil => cases hmem
      | cons e m ih =>
        obtain ⟨a, b⟩ := e
        have hm' := List.pairwise_cons.1 hm
        rcases List.mem_cons.1 hmem with h | h
        · cases h
          simp only [omInsert, strWeak.irrefl, Bool.false_eq_true, if_false]
        · have h1 := hm'.1 _ h
          simp only at h1
          simp only [omInsert, strWeak.asymm _ _ h1, h1, Bool.false_eq_true, if_false, if_true, ih hm'.2 h]
    rw [hsame]
    by_cases h : k' = k
    · rw [if_pos h, h, hf]; rfl
    · rw [if_neg h]

theorem inserts (L : List (Str × W32)) : ∀ m, Ordered strLt m → Ordered strLt (L.foldl (fun m e => omInsert strLt e.1 e.2 m) m) ∧
    ∀ k, omFind strLt k (L.foldl (fun m e => omInsert strLt e.1 e.2 m) m) = (omFind strLt k m).or (L.lookup k) := by
  induction L with
  | nil => intro m hm; exact ⟨hm, fun k => by simp⟩
  | cons e L ih =>
    intro m hm
    obtain ⟨i1, i2⟩ := ih _ (insert_ordered e.1 e.2 m hm).1
    refine ⟨i1, fun k => ?_⟩
    rw [List.foldl_cons, i2, insert_find _ _ _ _ hm]
    by_cases h : k = e.1
    · subst h
      rw [if_pos rfl, List.lookup_cons_self]
      cases omFind strLt e.1 m <;> rfl
    · rw [if_neg h, List.lookup_cons, beq_false_of_ne h]

theorem mapLists_iff (m : List (Str × W32)) (hm : Ordered strLt m) (f : Str → Option W32) (hf : ∀ k, omFind strLt k m = f k) : MapLists m f := by
  refine ⟨hm, fun k v => ?_⟩
  rw [← hf]
  exact ⟨fun h => omFind_mem strWeak m hm _ h, fun h => mem_of_find_str h⟩

theorem find_of_mapLists {m : List (Str × W32)} {f : Str → Option W32} (h : MapLists m f) (k : Str) : omFind strLt k m = f k := by
  cases hf : f k with
  | some v => exact omFind_mem strWeak m h.1 _ ((h.2 k v).2 hf)
  | none =>
    cases hm : omFind strLt k m with
    | none => rfl
    | some v => have := (h.2 k v).1 (mem_of_find_str hm); rw [hf] at this; cases this

/-- **C81**: what a handle finds. Whatever the parameters are: if there are as many names as numbers (missing parameters count as empty) then the map maps each name
to the number at the place of its first occurrence; otherwise `Exception` is thrown. -/
theorem C81_reads (keyName valueName : Str) (isConst : Bool) (p : Params) (keys : List Str) (values : List W32)
    (hk : keys = (omFind strLt keyName p.strs).getD []) (hv : values = (omFind strLt valueName p.ints).getD []) :
    (keys.length ≠ values.length → ParamMap.new keyName valueName isConst p = .error .lcException) ∧
    (keys.length = values.length → ∃ h, ParamMap.new keyName valueName isConst p = .ok h ∧ MapLists h.map fun k => (keys.zip values).lookup k) := by
  have e1 : getVals p.strs keyName [] = keys := by
    subst hk; unfold getVals; cases omFind strLt keyName p.strs <;> rfl
  have e2 : getVals p.ints valueName [] = values := by
    subst hv; unfold getVals; cases omFind strLt valueName p.ints <;> rfl
  unfold ParamMap.new paramMapInit
  simp only [e1, e2]
  constructor
  · intro h; rw [if_pos h]; rfl
  · intro h
    rw [if_neg (fun h' => h' h)]
    obtain ⟨i1, i2⟩ := inserts (keys.zip values) [] List.Pairwise.nil
    exact ⟨_, rfl, mapLists_iff _ i1 _ fun k => by rw [i2]; rfl⟩

/-! ## Uses one after the other -/

theorem edit_ok (h : ParamMap) (f : Str → Option W32) (hf : MapLists h.map f) (e : MapEdit) : MapLists (h.edit e).map (edited f [e]) := by
  cases e with
  | put k v =>
    refine mapLists_iff _ (omAssign_keys strWeak k v h.map hf.1).1 _ fun x => ?_
    show omFind strLt x (omAssign strLt k v h.map).1 = _
    rw [find_assign_str, find_of_mapLists hf]; rfl
  | erase k =>
    refine mapLists_iff _ (List.Pairwise.filter _ hf.1) _ fun x => ?_
    show omFind strLt x (omErase strLt k h.map) = _
    rw [omFind_erase, find_of_mapLists hf]; rfl

theorem edits_ok (es : List MapEdit) : ∀ (h : ParamMap) (f : Str → Option W32), MapLists h.map f →
    MapLists (es.foldl ParamMap.edit h).map (edited f es) ∧ (es.foldl ParamMap.edit h).keyName = h.keyName ∧ (es.foldl ParamMap.edit h).valueName = h.valueName ∧
      (es.foldl ParamMap.edit h).updates = h.updates := by
  induction es with
  | nil => intro h f hf; exact ⟨hf, rfl, rfl, rfl⟩
  | cons e es ih =>
    intro h f hf
    have h1 := edit_ok h f hf e
    obtain ⟨i1, i2, i3, i4⟩ := ih (h.edit e) _ h1
    refine ⟨?_, ?_, ?_, ?_⟩
    · cases e <;> exact i1
    · rw [List.foldl_cons, i2]; cases e <;> rfl
    · rw [List.foldl_cons, i3]; cases e <;> rfl
    · rw [List.foldl_cons, i4]; cases e <;> rfl

theorem zip_lookup (m : List (Str × W32)) (f : Str → Option W32) (h : MapLists m f) (k : Str) : ((m.map (·.1)).zip (m.map (·.2))).lookup k = f k := by
  have hz : (m.map (·.1)).zip (m.map (·.2)) = m := by
    clear h
    induction m with
    | nil => rfl
    | cons e m ih => rw [List.map_cons, List.map_cons, List.zip_cons_cons, ih]
  rw [hz, ← find_of_mapLists h]
  clear hz h
  induction m with
  | nil => rfl
  | cons e m ih =>
    rw [List.lookup_cons, omFind, List.find?_cons]
    by_cases hk : k = e.1
    · subst hk; rw [beq_self_eq_true, eqv_refl strWeak]; rfl
    · rw [beq_false_of_ne hk, show eqv strLt e.1 k = false from Bool.eq_false_iff.2 fun h => hk ((eqv_str _ _).1 h).symm]
      exact ih

/-- The parameters hold a map. -/
def HoldsMap (keyName valueName : Str) (p : Params) (f : Str → Option W32) : Prop :=
  ∀ c, ∃ h, ParamMap.new keyName valueName c p = .ok h ∧ h.keyName = keyName ∧ h.valueName = valueName ∧ h.updates = !c ∧ MapLists h.map f

theorem new_fields {keyName valueName : Str} {c : Bool} {p : Params} {h : ParamMap} (hh : ParamMap.new keyName valueName c p = .ok h) :
    h.keyName = keyName ∧ h.valueName = valueName ∧ h.updates = !c := by
  unfold ParamMap.new at hh
  cases hi : paramMapInit keyName valueName p with
  | error e => rw [hi] at hh; cases hh
  | ok m => rw [hi] at hh; cases hh; exact ⟨rfl, rfl, rfl⟩

theorem holdsMap_of (keyName valueName : Str) (p : Params) (f : Str → Option W32)
    (hl : ((omFind strLt keyName p.strs).getD []).length = ((omFind strLt valueName p.ints).getD []).length)
    (hf : ∀ k, (((omFind strLt keyName p.strs).getD []).zip ((omFind strLt valueName p.ints).getD [])).lookup k = f k) : HoldsMap keyName valueName p f := by
  intro c
  obtain ⟨h, h1, h2⟩ := (C81_reads keyName valueName c p _ _ rfl rfl).2 hl
  obtain ⟨a, b, d⟩ := new_fields h1
  exact ⟨h, h1, a, b, d, by rw [show f = _ from funext fun k => (hf k).symm]; exact h2⟩

/-- Parameters other than those of the map. -/
def SameOthers (keyName valueName : Str) (p p' : Params) : Prop :=
  (∀ k, k ≠ keyName → omFind strLt k p'.strs = omFind strLt k p.strs) ∧ (∀ k, k ≠ valueName → omFind strLt k p'.ints = omFind strLt k p.ints) ∧
  p'.floats = p.floats ∧ p'.readOnly = p.readOnly

theorem use_ok (keyName valueName : Str) (c : Bool) (es : List MapEdit) (p : Params) (hp : p.readOnly = false) (f : Str → Option W32) (h : HoldsMap keyName valueName p f) :
    ∃ m p', paramMapUse keyName valueName c es p = .ok (m, p') ∧ MapLists m f ∧ HoldsMap keyName valueName p' (if c then f else edited f es) ∧
      SameOthers keyName valueName p p' := by
  obtain ⟨h0, e1, e2, e3, e4, e5⟩ := h c
  obtain ⟨i1, i2, i3, i4⟩ := edits_ok es h0 f e5
  unfold paramMapUse
  rw [e1]
  show ∃ m p', ((es.foldl ParamMap.edit h0).destroy p >>= fun p => Except.ok (h0.map, p)) = _ ∧ _
  generalize es.foldl ParamMap.edit h0 = h1 at i1 i2 i3 i4
  cases c with
  | true =>
    refine ⟨h0.map, p, ?_, e5, by simpa using h, fun _ _ => rfl, fun _ _ => rfl, rfl, rfl⟩
    unfold ParamMap.destroy
    rw [i4, e4]; rfl
  | false =>
    refine ⟨h0.map, { p with strs := (omAssign strLt keyName (h1.map.map (·.1)) p.strs).1, ints := (omAssign strLt valueName (h1.map.map (·.2)) p.ints).1 }, ?_, e5, ?_, ?_⟩
    · unfold ParamMap.destroy
      rw [i4, e4, i2, i3, e2, e3]
      simp only [Bool.not_false, if_true, Params.setStrs, Params.setInts, Params.checked, hp, Bool.false_eq_true, if_false, bind, Except.bind, assignVals]
    · refine holdsMap_of _ _ _ _ ?_ ?_
      · simp only [find_assign_str, if_true, Option.getD_some, List.length_map]
      · intro k
        simp only [find_assign_str, if_true, Option.getD_some]
        exact zip_lookup h1.map _ i1 k
    · refine ⟨fun k hk => ?_, fun k hk => ?_, rfl, rfl⟩
      · simp only [find_assign_str, if_neg hk]
      · simp only [find_assign_str, if_neg hk]

theorem uses_ok (keyName valueName : Str) : ∀ (us : List (Bool × List MapEdit)) (p : Params), p.readOnly = false → ∀ (f : Str → Option W32), HoldsMap keyName valueName p f →
    ∃ ms p', paramMapUses keyName valueName us p = .ok (ms, p') ∧ List.Forall₂ MapLists ms (mapsFound f us) ∧ HoldsMap keyName valueName p' (mapAfter f us) ∧
      SameOthers keyName valueName p p' := by
  intro us
  induction us with
  | nil => intro p _ f h; exact ⟨[], p, rfl, List.Forall₂.nil, h, fun _ _ => rfl, fun _ _ => rfl, rfl, rfl⟩
  | cons u us ih =>
    obtain ⟨c, es⟩ := u
    intro p hp f h
    obtain ⟨m, p1, e1, e2, e3, e4⟩ := use_ok keyName valueName c es p hp f h
    obtain ⟨ms, p2, f1, f2, f3, f4⟩ := ih p1 (by rw [e4.2.2.2, hp]) _ e3
    refine ⟨m :: ms, p2, ?_, List.Forall₂.cons e2 f2, f3, ?_⟩
    · unfold paramMapUses
      rw [e1]
      show (paramMapUses keyName valueName us p1 >>= _) = _
      rw [f1]; rfl
    · exact ⟨fun k hk => (f4.1 k hk).trans (e4.1 k hk), fun k hk => (f4.2.1 k hk).trans (e4.2.1 k hk), f4.2.2.1.trans e4.2.2.1, f4.2.2.2.trans e4.2.2.2⟩

/-- **C81**: a map kept in the parameters of a collection behaves like one map. However often handles are made one after the other, for `const` collections or not, and whatever is done to
their maps: each handle finds what the edits before have made, in the order of the names, and a last one, whether for a `const` collection or not, finds what they all have made. Edits
through handles of `const` collections do nothing, and all other parameters stay as they were. At the beginning the parameters may be missing, or be any names and as many numbers.
(The parameters of a collection
are never read-only, not even when the collection is: no code sets the flag of parameters.) Missing: handles at the same time (see below). -/
theorem C81_one_map_partial (keyName valueName : Str) (p : Params) (hp : p.readOnly = false) (keys : List Str) (values : List W32)
    (hk : keys = (omFind strLt keyName p.strs).getD []) (hv : values = (omFind strLt valueName p.ints).getD []) (hl : keys.length = values.length)
    (us : List (Bool × List MapEdit)) :
    ∃ ms p', paramMapUses keyName valueName us p = .ok (ms, p') ∧
      List.Forall₂ MapLists ms (mapsFound (fun k => (keys.zip values).lookup k) us) ∧
      (∀ c, ∃ h, ParamMap.new keyName valueName c p' = .ok h ∧ MapLists h.map (mapAfter (fun k => (keys.zip values).lookup k) us)) ∧
      (∀ k, k ≠ keyName → omFind strLt k p'.strs = omFind strLt k p.strs) ∧ (∀ k, k ≠ valueName → omFind strLt k p'.ints = omFind strLt k p.ints) ∧ p'.floats = p.floats := by
  subst hk hv
  obtain ⟨ms, p', h1, h2, h3, h4, h5, h6, _⟩ := uses_ok keyName valueName us p hp _ (holdsMap_of keyName valueName p _ hl fun _ => rfl)
  refine ⟨ms, p', h1, h2, fun c => ?_, h4, h5, h6⟩
  obtain ⟨h, e1, _, _, _, e2⟩ := h3 c
  exact ⟨h, e1, e2⟩

/-- Parameters and uses as in the theorem: two entries, then an erased one, a `const` use and a new value. -/
def mapSample : Params := { strs := [(str "k", [str "b", str "a"]), (str "other", [str "x"])], ints := [(str "v", [2, 1])] }
def mapSampleUses : List (Bool × List MapEdit) := [(false, [.put (str "c") 3, .erase (str "b")]), (true, [.put (str "a") 7]), (false, [.put (str "a") 9])]
example : paramMapUses (str "k") (str "v") mapSampleUses mapSample =
    .ok ([[(str "a", 1), (str "b", 2)], [(str "a", 1), (str "c", 3)], [(str "a", 1), (str "c", 3)]],
      { strs := [(str "k", [str "a", str "c"]), (str "other", [str "x"])], ints := [(str "v", [9, 3])] }) := by
  decide +kernel

/-- A map that a handle refuses: a name without number. -/
example : ParamMap.new (str "k") (str "v") true { strs := [(str "k", [str "a"])] } = .error .lcException := by decide +kernel

/-- **C81** fails for two handles of the same map at the same time: what was done through the one that goes out of scope first is lost. -/
theorem C81_fails_for_two_handles : ∃ h1 h2 p1 p2, ParamMap.new (str "k") (str "v") false {} = .ok h1 ∧ ParamMap.new (str "k") (str "v") false {} = .ok h2 ∧
    (h1.edit (.put (str "a") 1)).destroy {} = .ok p1 ∧ (h2.edit (.put (str "b") 2)).destroy p1 = .ok p2 ∧ paramMapInit (str "k") (str "v") p2 = .ok [(str "b", 2)] := by
  refine ⟨⟨str "k", str "v", true, []⟩, ⟨str "k", str "v", true, []⟩, { strs := [(str "k", [str "a"])], ints := [(str "v", [1])] },
    { strs := [(str "k", [str "b"])], ints := [(str "v", [2])] }, ?_, ?_, ?_, ?_, ?_⟩ <;> decide +kernel

end Props
