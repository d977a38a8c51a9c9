import Verif.Util.TrackerConf
import Verif.Spec.TrackerConf
import Verif.Props.CellID
/-
C80: the encoding of cell ids of trackers.
-/
namespace Props
open Sio Util Spec Lcio

/-! ## Finding -/

theorem isPrefixOf_split (t s : Str) : t.isPrefixOf s = true ↔ ∃ b, s = t ++ b := by
  rw [List.isPrefixOf_iff_prefix]
  exact ⟨fun ⟨b, h⟩ => ⟨b, h.symm⟩, fun ⟨b, h⟩ => ⟨b, h.symm⟩⟩

theorem findFrom_none (t : Str) (ht : t ≠ []) : ∀ (s : Str) (i : Nat), i + s.length < findNpos → (findFrom t i s = findNpos ↔ ¬ ∃ a b, s = a ++ t ++ b) := by
  intro s
  induction s with
  | nil =>
    intro i _
    rw [findFrom, if_neg ht]
    refine ⟨fun _ ⟨a, b, h⟩ => ?_, fun _ => rfl⟩
    have h1 := congrArg List.length h
    have h2 : t.length ≠ 0 := fun h0 => ht (List.length_eq_zero_iff.1 h0)
    simp only [List.length_nil, List.length_append] at h1
    omega
  | cons c s ih =>
    intro i hi
    simp only [List.length_cons] at hi
    rw [findFrom]
    by_cases hp : t.isPrefixOf (c :: s) = true
    · rw [if_pos hp]
      obtain ⟨b, hb⟩ := (isPrefixOf_split _ _).1 hp
      refine ⟨fun h => by omega, fun h => absurd ⟨[], b, by simpa using hb⟩ h⟩
    · rw [if_neg hp, ih (i + 1) (by omega)]
      refine not_congr ⟨fun ⟨a, b, h⟩ => ⟨c :: a, b, by rw [h]; simp⟩, fun ⟨a, b, h⟩ => ?_⟩
      cases a with
      | nil => exact absurd ((isPrefixOf_split _ _).2 ⟨b, by simpa using h⟩) hp
      | cons x a => simp only [List.cons_append, List.cons.injEq] at h; exact ⟨a, b, h.2⟩

theorem findFrom_some (t : Str) (ht : t ≠ []) : ∀ (s : Str) (i p : Nat), i + s.length < findNpos → (findFrom t i s = i + p ∧ p ≤ s.length ↔ FirstAt s t p) := by
  intro s
  induction s with
  | nil =>
    intro i p hi
    simp only [List.length_nil] at hi
    rw [findFrom, if_neg ht]
    refine ⟨fun ⟨h, h'⟩ => by simp at h'; omega, fun ⟨⟨a, b, h, _⟩, _⟩ => ?_⟩
    have h1 := congrArg List.length h
    have h2 : t.length ≠ 0 := fun h0 => ht (List.length_eq_zero_iff.1 h0)
    simp only [List.length_nil, List.length_append] at h1
    omega
  | cons c s ih =>
    intro i p hi
    simp only [List.length_cons] at hi
    rw [findFrom]
    by_cases hp : t.isPrefixOf (c :: s) = true
    · rw [if_pos hp]
      obtain ⟨b, hb⟩ := (isPrefixOf_split _ _).1 hp
      constructor
      · rintro ⟨h, _⟩
        have : p = 0 := by omega
        subst this
        exact ⟨⟨[], b, by simpa using hb, rfl⟩, fun a b h => Nat.zero_le _⟩
      · rintro ⟨_, h⟩
        have := h [] b (by simpa using hb)
        simp at this
        subst this
        exact ⟨rfl, Nat.zero_le _⟩
    · rw [if_neg hp]
      have key : ∀ a b, c :: s = a ++ t ++ b → ∃ a', a = c :: a' ∧ s = a' ++ t ++ b := by
        intro a b h
        cases a with
        | nil => exact absurd ((isPrefixOf_split _ _).2 ⟨b, by simpa using h⟩) hp
        | cons x a => simp only [List.cons_append, List.cons.injEq] at h; exact ⟨a, by rw [h.1], h.2⟩
      cases p with
      | zero =>
        constructor
        · rintro ⟨h, _⟩
          exfalso
          by_cases hn : findFrom t (i + 1) s = findNpos
          · omega
          · have hex : ∃ a b, s = a ++ t ++ b := Classical.byContradiction fun h => hn ((findFrom_none t ht s (i + 1) (by omega)).2 h)
            have hge : ∀ (s : Str) (i : Nat), i + s.length < findNpos → i ≤ findFrom t i s := by
              intro s
              induction s with
              | nil => intro i hi; rw [findFrom, if_neg ht]; simp at hi; omega
              | cons c s ih =>
                intro i hi
                simp only [List.length_cons] at hi
                rw [findFrom]
                split
                · exact Nat.le_refl _
                · exact Nat.le_trans (Nat.le_succ _) (ih (i + 1) (by omega))
            have := hge s (i + 1) (by omega)
            omega
        · rintro ⟨⟨a, b, h, h0⟩, _⟩
          obtain ⟨a', rfl, _⟩ := key a b h
          cases h0
      | succ p =>
        have := ih (i + 1) p (by omega)
        rw [show i + (p + 1) = i + 1 + p by omega, List.length_cons, Nat.add_le_add_iff_right, this]
        constructor
        · rintro ⟨⟨a, b, h, h0⟩, h1⟩
          refine ⟨⟨c :: a, b, by rw [h]; simp, by simp [h0]⟩, fun a b h => ?_⟩
          obtain ⟨a', rfl, h'⟩ := key a b h
          have := h1 a' b h'
          simpa using this
        · rintro ⟨⟨a, b, h, h0⟩, h1⟩
          obtain ⟨a', rfl, h'⟩ := key a b h
          refine ⟨⟨a', b, h', by simpa using h0⟩, fun a b h => ?_⟩
          have := h1 (c :: a) b (by rw [h]; simp)
          simpa using this

theorem findFrom_le (t : Str) : ∀ (s : Str) (i : Nat), findFrom t i s ≤ i + s.length ∨ findFrom t i s = findNpos := by
  intro s
  induction s with
  | nil => intro i; rw [findFrom]; split <;> simp
  | cons c s ih =>
    intro i
    rw [findFrom]
    split
    · exact Or.inl (Nat.le_add_right _ _)
    · rcases ih (i + 1) with h | h
      · left; rw [List.length_cons]; omega
      · exact Or.inr h

theorem strFind_spec (s t : Str) (ht : t ≠ []) (hs : s.length < 2 ^ 63) :
    (strFind s t = findNpos ∧ ∀ p, ¬ FirstAt s t p) ∨ (strFind s t < findNpos ∧ ∀ p, FirstAt s t p ↔ p = strFind s t) := by
  have hnp : 0 + s.length < findNpos := by unfold findNpos; omega
  have h := fun p => findFrom_some t ht s 0 p hnp
  simp only [Nat.zero_add] at h
  by_cases hn : strFind s t = findNpos
  · left
    refine ⟨hn, fun p hp => ?_⟩
    have := (h p).2 hp
    unfold strFind at hn
    omega
  · right
    have hle := (findFrom_le t s 0).resolve_right hn
    simp only [Nat.zero_add] at hle hnp
    refine ⟨by unfold strFind; omega, fun p => ?_⟩
    rw [← h p]
    unfold strFind
    constructor
    · rintro ⟨h1, _⟩; exact h1.symm
    · intro hp; rw [hp]; exact ⟨rfl, hle⟩

theorem valid_iff (s : Str) (hs : s.length < 2 ^ 63) : validEncoding s = true ↔ NamesInOrder s := by
  have k0 := strFind_spec s (str "subdet") (by decide) hs
  have k0' := strFind_spec s (str "system") (by decide) hs
  have k1 := strFind_spec s (str "side") (by decide) hs
  have k2 := strFind_spec s (str "layer") (by decide) hs
  have k3 := strFind_spec s (str "module") (by decide) hs
  have k4 := strFind_spec s (str "sensor") (by decide) hs
  unfold validEncoding NamesInOrder
  simp only [Bool.and_eq_true, Bool.or_eq_true, decide_eq_true_eq, bne_iff_ne]
  generalize strFind s (str "subdet") = a0 at *
  generalize strFind s (str "system") = a0' at *
  generalize strFind s (str "side") = a1 at *
  generalize strFind s (str "layer") = a2 at *
  generalize strFind s (str "module") = a3 at *
  generalize strFind s (str "sensor") = a4 at *
  constructor
  · rintro ⟨⟨⟨⟨⟨h0, h1⟩, h2⟩, h3⟩, h4⟩, ⟨⟨h5, h6⟩, h7⟩, h8⟩
    have k1 := k1.resolve_left fun h => h1 h.1
    have k2 := k2.resolve_left fun h => h2 h.1
    have k3 := k3.resolve_left fun h => h3 h.1
    have k4 := k4.resolve_left fun h => h4 h.1
    rcases h5 with h5 | h5
    · have k0 := k0.resolve_left fun h => by omega
      exact ⟨a0, a1, a2, a3, a4, Or.inl ((k0.2 _).2 rfl), (k1.2 _).2 rfl, (k2.2 _).2 rfl, (k3.2 _).2 rfl, (k4.2 _).2 rfl, h5, h6, h7, h8⟩
    · have k0' := k0'.resolve_left fun h => by omega
      exact ⟨a0', a1, a2, a3, a4, Or.inr ((k0'.2 _).2 rfl), (k1.2 _).2 rfl, (k2.2 _).2 rfl, (k3.2 _).2 rfl, (k4.2 _).2 rfl, h5, h6, h7, h8⟩
  · rintro ⟨p0, p1, p2, p3, p4, h0, h1, h2, h3, h4, h5, h6, h7, h8⟩
    have k1 := k1.resolve_left fun h => h.2 _ h1
    have k2 := k2.resolve_left fun h => h.2 _ h2
    have k3 := k3.resolve_left fun h => h.2 _ h3
    have k4 := k4.resolve_left fun h => h.2 _ h4
    have e1 := (k1.2 _).1 h1
    have e2 := (k2.2 _).1 h2
    have e3 := (k3.2 _).1 h3
    have e4 := (k4.2 _).1 h4
    rcases h0 with h0 | h0
    · have k0 := k0.resolve_left fun h => h.2 _ h0
      have e0 := (k0.2 _).1 h0
      omega
    · have k0' := k0'.resolve_left fun h => h.2 _ h0
      have e0 := (k0'.2 _).1 h0
      omega

/-! ## Histories -/

/-- Calls that use the encoding. -/
def _root_.Util.ConfCall.uses : ConfCall → Bool
  | .setEncoding _ => false
  | _ => true

theorem conf_accessed (c : TrackerConf) (h : c.accessed = true) (x : ConfCall) :
    (c.call x).2 = c ∧ ∀ s, x = .setEncoding s → (c.call x).1 = .error .logicError := by
  obtain ⟨e, a⟩ := c
  simp only at h
  subst h
  cases x with
  | encodingString => exact ⟨rfl, fun s hs => by cases hs⟩
  | setAccessed => exact ⟨rfl, fun s hs => by cases hs⟩
  | valueString v =>
    refine ⟨?_, fun s hs => by cases hs⟩
    simp only [TrackerConf.call, TrackerConf.valueString, TrackerConf.setAccessed, TrackerConf.encodingString]
    split <;> rfl
  | setEncoding s => exact ⟨rfl, fun _ _ => rfl⟩

theorem conf_uses (c : TrackerConf) (x : ConfCall) (hx : x.uses = true) : (c.call x).2 = { c with accessed := true } := by
  cases x with
  | encodingString => rfl
  | setAccessed => rfl
  | valueString v =>
    simp only [TrackerConf.call, TrackerConf.valueString, TrackerConf.setAccessed, TrackerConf.encodingString]
    split <;> rfl
  | setEncoding s => cases hx

theorem conf_calls_accessed : ∀ (xs : List ConfCall) (c : TrackerConf), c.accessed = true → (c.calls xs).2 = c ∧
    ∀ (i : Nat) s, xs[i]? = some (.setEncoding s) → (c.calls xs).1[i]? = some (.error .logicError) := by
  intro xs
  induction xs with
  | nil => intro c _; exact ⟨rfl, fun i s h => by cases h⟩
  | cons x xs ih =>
    intro c h
    obtain ⟨h1, h2⟩ := conf_accessed c h x
    simp only [TrackerConf.calls, h1]
    obtain ⟨h3, h4⟩ := ih c h
    refine ⟨h3, fun i s hi => ?_⟩
    cases i with
    | zero => simp only [List.getElem?_cons_zero, Option.some.injEq] at hi ⊢; exact h2 s hi
    | succ i => exact h4 i s hi

theorem conf_calls_append : ∀ (xs ys : List ConfCall) (c : TrackerConf),
    c.calls (xs ++ ys) = ((c.calls xs).1 ++ ((c.calls xs).2.calls ys).1, ((c.calls xs).2.calls ys).2) := by
  intro xs
  induction xs with
  | nil => intro ys c; rfl
  | cons x xs ih => intro ys c; simp only [List.cons_append, TrackerConf.calls, ih, List.cons_append]

/-- **C80**: the encoding never changes once it has been used. Whatever calls came before, if a call uses the encoding (`x`), then whatever calls come after it, the
encoding is still the one that was in force then, `encoding_string` returns it, `valueString` uses it, and each attempt to set another one throws
`std::logic_error`. -/
theorem C80_constant (before after : List ConfCall) (x : ConfCall) (hx : x.uses = true) :
    let c := (({} : TrackerConf).calls before).2
    let c' := (({} : TrackerConf).calls (before ++ x :: after)).2
    c'.encoding = c.encoding ∧
    c'.encodingString.1 = c.encodingString.1 ∧
    (∀ v, (c'.valueString v).1 = (c.valueString v).1) ∧
    ∀ (i : Nat) s, after[i]? = some (.setEncoding s) → ((c.call x).2.calls after).1[i]? = some (.error .logicError) := by
  intro c c'
  have h1 : (c.call x).2 = { c with accessed := true } := conf_uses c x hx
  obtain ⟨h2, h3⟩ := conf_calls_accessed after { c with accessed := true } rfl
  have h4 : c' = { c with accessed := true } := by
    show (({} : TrackerConf).calls (before ++ x :: after)).2 = _
    rw [conf_calls_append]
    simp only [TrackerConf.calls]
    show ((c.call x).2.calls after).2 = _
    rw [h1, h2]
  refine ⟨by rw [h4], by rw [h4]; rfl, fun v => by rw [h4]; rfl, ?_⟩
  rw [h1]; exact h3

theorem conf_sets : ∀ (ss : List Str) (c : TrackerConf), c.accessed = false →
    (c.calls (ss.map .setEncoding)).1 = ss.map (fun s => if validEncoding s then .ok none else .error .runtimeError) ∧
    (c.calls (ss.map .setEncoding)).2 = { encoding := lastGood validEncoding c.encoding ss, accessed := false } := by
  intro ss
  induction ss with
  | nil => intro c h; obtain ⟨e, a⟩ := c; simp only at h; subst h; exact ⟨rfl, rfl⟩
  | cons s ss ih =>
    intro c h
    obtain ⟨e, a⟩ := c
    simp only at h
    subst h
    by_cases hv : validEncoding s = true
    · have := ih { encoding := s } rfl
      simp only [List.map_cons, TrackerConf.calls, TrackerConf.call, TrackerConf.setEncoding, hv, Bool.false_eq_true, if_false, Bool.not_true, if_true, lastGood]
      exact ⟨by rw [this.1]; rfl, this.2⟩
    · have := ih { encoding := e } rfl
      simp only [List.map_cons, TrackerConf.calls, TrackerConf.call, TrackerConf.setEncoding, hv, Bool.false_eq_true, if_false, Bool.not_false, if_true, lastGood]
      exact ⟨by rw [this.1]; rfl, this.2⟩

/-- **C80**: before the encoding is used it can be set. A text is accepted if it contains the names in the right order, otherwise
`std::runtime_error` is thrown and nothing changes; in force is the text accepted last, or the default if there was none. -/
theorem C80_set (ss : List Str) (hs : ∀ s ∈ ss, s.length < 2 ^ 63) :
    ∃ good : Str → Bool, (∀ s ∈ ss, good s = true ↔ NamesInOrder s) ∧
      (({} : TrackerConf).calls (ss.map .setEncoding)).1 = ss.map (fun s => if good s then .ok none else .error .runtimeError) ∧
      (({} : TrackerConf).calls (ss.map .setEncoding)).2.encodingString.1 = lastGood good (str "subdet:5,side:-2,layer:9,module:8,sensor:8") ss := by
  obtain ⟨h1, h2⟩ := conf_sets ss {} rfl
  exact ⟨validEncoding, fun s h => valid_iff s (hs s h), h1, by rw [h2]; rfl⟩

/-! ## The order of the fields -/

theorem split_at_sep (c : Byte) (w : Str) (hw : w ≠ []) (hc : c ∉ w) : ∀ (x y a b : Str), x ++ c :: y = a ++ w ++ b →
    (∃ b', x = a ++ w ++ b') ∨ ∃ a', a = x ++ c :: a' ∧ y = a' ++ w ++ b := by
  intro x y a b h
  rw [List.append_assoc] at h
  rcases List.append_eq_append_iff.1 h with ⟨z, h1, h2⟩ | ⟨z, h1, h2⟩
  · -- a = x ++ z
    cases z with
    | nil =>
      cases w with
      | nil => exact absurd rfl hw
      | cons d w =>
        simp only [List.nil_append, List.cons_append, List.cons.injEq] at h2
        exact absurd (by rw [h2.1]; exact List.mem_cons_self) hc
    | cons d z =>
      simp only [List.cons_append, List.cons.injEq] at h2
      right
      exact ⟨z, by rw [h1, h2.1], by rw [h2.2, List.append_assoc]⟩
  · -- x = a ++ z
    left
    rcases List.append_eq_append_iff.1 h2 with ⟨z', h3, h4⟩ | ⟨z', h3, h4⟩
    · exact ⟨z', by rw [h1, h3, List.append_assoc]⟩
    · cases z' with
      | nil => exact ⟨[], by rw [h1, h3]; simp⟩
      | cons d z' =>
        simp only [List.cons_append, List.cons.injEq] at h4
        exact absurd (by rw [h3, h4.1]; simp) hc

/-- Where the description of a field begins. -/
def descStart : List FieldDesc → Nat → Nat
  | [], _ => 0
  | _, 0 => 0
  | d :: ds, i + 1 => d.text.length + 1 + descStart ds i

theorem confNames_apart : ∀ n ∈ confNames, ∀ w ∈ confNames, ∀ k ∈ List.range (n.length + 1), w.isPrefixOf (n.drop k) = true → k = 0 ∧ n = w := by
  decide +kernel

theorem confNames_words : ∀ w ∈ confNames, w ≠ [] ∧ (58 : Byte) ∉ w ∧ (44 : Byte) ∉ w ∧ ∀ c ∈ w, 97 ≤ c := by decide +kernel

theorem occurs_in_text (d : FieldDesc) (hd : d.name ∈ confNames) (w : Str) (hw : w ∈ confNames) (a b : Str) (h : d.text = a ++ w ++ b) : a = [] ∧ d.name = w := by
  obtain ⟨w0, w1, w2, w3⟩ := confNames_words w hw
  have htext : d.text = d.name ++ 58 :: ((match d.offset with | none => [] | some o => dec o ++ str ":") ++ (if d.signed then str "-" else []) ++ dec d.width) := by
    unfold FieldDesc.text
    simp only [List.append_assoc]
    rfl
  rw [htext] at h
  rcases split_at_sep 58 w w0 w1 _ _ _ _ h with ⟨b', h1⟩ | ⟨a', _, h1⟩
  · have := confNames_apart _ hd w hw a.length (List.mem_range.2 (by rw [h1]; simp only [List.length_append]; omega)) (by
      rw [isPrefixOf_split]; exact ⟨b', by rw [h1, List.append_assoc, List.drop_left]⟩)
    exact ⟨List.length_eq_zero_iff.1 this.1, this.2⟩
  · exfalso
    cases w with
    | nil => exact w0 rfl
    | cons c w =>
      have hc := w3 c List.mem_cons_self
      have hm : c ∈ (match d.offset with | none => [] | some o => dec o ++ str ":") ++ (if d.signed then str "-" else []) ++ dec d.width := by
        rw [h1]; simp
      have hdig : ∀ n, c ∈ dec n → False := by
        intro n hn
        have := dec_digits n c hn
        unfold isDigit at this
        simp only [Bool.and_eq_true, decide_eq_true_eq] at this
        have h2 := this.2
        exact absurd (UInt8.le_trans hc h2) (by decide)
      simp only [List.mem_append] at hm
      rcases hm with (hm | hm) | hm
      · cases ho : d.offset with
        | none => rw [ho] at hm; cases hm
        | some o =>
          rw [ho] at hm
          rcases List.mem_append.1 hm with hm | hm
          · exact hdig _ hm
          · have : c = 58 := by simpa [str] using hm
            subst this; revert hc; decide
      · cases hs : d.signed with
        | false => rw [hs] at hm; cases hm
        | true =>
          rw [hs] at hm
          have : c = 45 := by simpa [str] using hm
          subst this; revert hc; decide
      · exact hdig _ hm

theorem occurs_in_descs (w : Str) (hw : w ∈ confNames) : ∀ (ds : List FieldDesc), (∀ d ∈ ds, d.name ∈ confNames) → ∀ a b, commas (ds.map FieldDesc.text) = a ++ w ++ b →
    ∃ i, ∃ h : i < ds.length, ds[i].name = w ∧ a.length = descStart ds i := by
  obtain ⟨w0, w1, w2, w3⟩ := confNames_words w hw
  intro ds
  induction ds with
  | nil =>
    intro _ a b h
    exfalso
    have := congrArg List.length h
    have h2 : w.length ≠ 0 := fun h0 => w0 (List.length_eq_zero_iff.1 h0)
    simp only [List.map_nil, commas, List.length_nil, List.length_append] at this
    omega
  | cons d ds ih =>
    intro hn a b h
    cases ds with
    | nil =>
      obtain ⟨h1, h2⟩ := occurs_in_text d (hn d List.mem_cons_self) w hw a b h
      exact ⟨0, by simp, h2, by rw [h1]; rfl⟩
    | cons d' ds =>
      have hc : commas (List.map FieldDesc.text (d :: d' :: ds)) = d.text ++ 44 :: commas (List.map FieldDesc.text (d' :: ds)) := by
        simp only [List.map_cons, commas, List.append_assoc]; rfl
      rw [hc] at h
      rcases split_at_sep 44 w w0 w2 _ _ _ _ h with ⟨b', h1⟩ | ⟨a', h1, h2⟩
      · obtain ⟨h1, h2⟩ := occurs_in_text d (hn d List.mem_cons_self) w hw a b' h1
        exact ⟨0, by simp, h2, by rw [h1]; rfl⟩
      · obtain ⟨i, hi, h3, h4⟩ := ih (fun x hx => hn x (List.mem_cons_of_mem _ hx)) a' b h2
        refine ⟨i + 1, by simpa using hi, by simpa using h3, ?_⟩
        rw [h1, List.length_append, List.length_cons, h4, descStart]
        omega

theorem text_begins (d : FieldDesc) : ∃ r, d.text = d.name ++ r := by
  unfold FieldDesc.text
  simp only [List.append_assoc]
  exact ⟨_, rfl⟩

theorem start_occurs : ∀ (ds : List FieldDesc) (i : Nat) (h : i < ds.length), ∃ a b, commas (ds.map FieldDesc.text) = a ++ ds[i].name ++ b ∧ a.length = descStart ds i := by
  intro ds
  induction ds with
  | nil => intro i h; cases h
  | cons d ds ih =>
    intro i h
    cases i with
    | zero =>
      cases ds with
      | nil =>
        obtain ⟨r, hr⟩ := text_begins d
        exact ⟨[], r, by simp only [List.map_cons, List.map_nil, commas, List.nil_append, List.getElem_cons_zero]; exact hr, rfl⟩
      | cons d' ds =>
        obtain ⟨r, hr⟩ := text_begins d
        exact ⟨[], r ++ (str "," ++ commas (List.map FieldDesc.text (d' :: ds))), by
          simp only [List.map_cons, commas, List.nil_append, List.getElem_cons_zero]; rw [hr]; simp only [List.append_assoc], rfl⟩
    | succ i =>
      cases ds with
      | nil => simp at h
      | cons d' ds =>
        obtain ⟨a, b, h1, h2⟩ := ih i (by simpa using h)
        have hc : commas (List.map FieldDesc.text (d :: d' :: ds)) = d.text ++ 44 :: commas (List.map FieldDesc.text (d' :: ds)) := by
          simp only [List.map_cons, commas, List.append_assoc]; rfl
        refine ⟨d.text ++ 44 :: a, b, ?_, ?_⟩
        · rw [hc, h1]; simp
        · rw [List.length_append, List.length_cons, h2, descStart]; omega

theorem descStart_lt : ∀ (ds : List FieldDesc) (i j : Nat), j < ds.length → i < j → descStart ds i < descStart ds j := by
  intro ds
  induction ds with
  | nil => intro i j h; cases h
  | cons d ds ih =>
    intro i j hj hij
    cases j with
    | zero => omega
    | succ j =>
      cases i with
      | zero => rw [descStart, descStart]; omega; simp
      | succ i =>
        rw [descStart, descStart]
        have := ih i j (by simpa using hj) (by omega)
        omega

theorem descStart_order (ds : List FieldDesc) (i j : Nat) (hi : i < ds.length) (h : descStart ds i < descStart ds j) : i < j := by
  rcases Nat.lt_trichotomy i j with hij | rfl | hij
  · exact hij
  · omega
  · have := descStart_lt ds j i hi hij; omega

theorem accepted_iff (ds : List FieldDesc) (h5 : ds.length = 5) (hn : ∀ d ∈ ds, d.name ∈ confNames) :
    NamesInOrder (commas (ds.map FieldDesc.text)) ↔
      ∃ first, (first = str "subdet" ∨ first = str "system") ∧ ds.map (·.name) = [first, str "side", str "layer", str "module", str "sensor"] := by
  have m0 : str "subdet" ∈ confNames := by decide
  have m0' : str "system" ∈ confNames := by decide
  have m1 : str "side" ∈ confNames := by decide
  have m2 : str "layer" ∈ confNames := by decide
  have m3 : str "module" ∈ confNames := by decide
  have m4 : str "sensor" ∈ confNames := by decide
  constructor
  · rintro ⟨p0, p1, p2, p3, p4, h0, h1, h2, h3, h4, l0, l1, l2, l3⟩
    have loc : ∀ w ∈ confNames, ∀ p, FirstAt (commas (ds.map FieldDesc.text)) w p → ∃ i, ∃ h : i < ds.length, ds[i].name = w ∧ p = descStart ds i := by
      rintro w hw p ⟨⟨a, b, e, ea⟩, _⟩
      obtain ⟨i, hi, e1, e2⟩ := occurs_in_descs w hw ds hn a b e
      exact ⟨i, hi, e1, by omega⟩
    have hz : ∃ first, (first = str "subdet" ∨ first = str "system") ∧ ∃ i, ∃ h : i < ds.length, ds[i].name = first ∧ p0 = descStart ds i := by
      rcases h0 with h0 | h0
      · exact ⟨_, Or.inl rfl, loc _ m0 _ h0⟩
      · exact ⟨_, Or.inr rfl, loc _ m0' _ h0⟩
    obtain ⟨first, hf, i0, q0, e0, r0⟩ := hz
    obtain ⟨i1, q1, e1, r1⟩ := loc _ m1 _ h1
    obtain ⟨i2, q2, e2, r2⟩ := loc _ m2 _ h2
    obtain ⟨i3, q3, e3, r3⟩ := loc _ m3 _ h3
    obtain ⟨i4, q4, e4, r4⟩ := loc _ m4 _ h4
    subst r0 r1 r2 r3 r4
    have o0 := descStart_order ds i0 i1 q0 l0
    have o1 := descStart_order ds i1 i2 q1 l1
    have o2 := descStart_order ds i2 i3 q2 l2
    have o3 := descStart_order ds i3 i4 q3 l3
    have : i0 = 0 := by omega
    have : i1 = 1 := by omega
    have : i2 = 2 := by omega
    have : i3 = 3 := by omega
    have : i4 = 4 := by omega
    subst i0 i1 i2 i3 i4
    refine ⟨first, hf, ?_⟩
    have hds : ∃ d0 d1 d2 d3 d4, ds = [d0, d1, d2, d3, d4] := by
      match ds, h5 with
      | [d0, d1, d2, d3, d4], _ => exact ⟨_, _, _, _, _, rfl⟩
    obtain ⟨d0, d1, d2, d3, d4, rfl⟩ := hds
    simp only [List.getElem_cons_zero, List.getElem_cons_succ] at e0 e1 e2 e3 e4
    simp only [List.map_cons, List.map_nil, e0, e1, e2, e3, e4]
  · rintro ⟨first, hf, hnames⟩
    have at' : ∀ i (hi : i < ds.length), (∀ j (hj : j < ds.length), ds[j].name = ds[i].name → i ≤ j) → FirstAt (commas (ds.map FieldDesc.text)) ds[i].name (descStart ds i) := by
      intro i hi huniq
      refine ⟨start_occurs ds i hi, fun a b e => ?_⟩
      obtain ⟨j, hj, e1, e2⟩ := occurs_in_descs _ (hn _ (List.getElem_mem hi)) ds hn a b e
      rw [e2]
      rcases Nat.lt_or_ge i j with h | h
      · exact Nat.le_of_lt (descStart_lt ds i j hj h)
      · rw [show j = i from Nat.le_antisymm h (huniq j hj e1)]
    have hname : ∀ i w, [first, str "side", str "layer", str "module", str "sensor"][i]? = some w → ∃ hi : i < ds.length, ds[i].name = w := by
      intro i w h
      rw [← hnames, List.getElem?_map, Option.map_eq_some_iff] at h
      obtain ⟨d, hd, rfl⟩ := h
      obtain ⟨hi, rfl⟩ := List.getElem?_eq_some_iff.1 hd
      exact ⟨hi, rfl⟩
    have huniq : ∀ i (hi : i < ds.length), ∀ j (hj : j < ds.length), ds[j].name = ds[i].name → i ≤ j := by
      intro i hi j hj h
      have hi' : [first, str "side", str "layer", str "module", str "sensor"][i]? = some ds[i].name := by rw [← hnames, List.getElem?_map, List.getElem?_eq_getElem hi]; rfl
      have hj' : [first, str "side", str "layer", str "module", str "sensor"][j]? = some ds[j].name := by rw [← hnames, List.getElem?_map, List.getElem?_eq_getElem hj]; rfl
      have hij : [first, str "side", str "layer", str "module", str "sensor"][j]? = [first, str "side", str "layer", str "module", str "sensor"][i]? := by rw [hi', hj', h]
      have key : ∀ first ∈ [str "subdet", str "system"], ∀ i ∈ List.range 5, ∀ j ∈ List.range 5,
          [first, str "side", str "layer", str "module", str "sensor"][j]? = [first, str "side", str "layer", str "module", str "sensor"][i]? → i ≤ j := by
        decide +kernel
      exact key first (by rcases hf with rfl | rfl <;> simp) i (List.mem_range.2 (by omega)) j (List.mem_range.2 (by omega)) hij
    have g : ∀ i w, [first, str "side", str "layer", str "module", str "sensor"][i]? = some w → FirstAt (commas (ds.map FieldDesc.text)) w (descStart ds i) := by
      intro i w h
      obtain ⟨hi, rfl⟩ := hname i w h
      exact at' i hi (huniq i hi)
    have g0 := g 0 first rfl
    have g1 := g 1 (str "side") rfl
    have g2 := g 2 (str "layer") rfl
    have g3 := g 3 (str "module") rfl
    have g4 := g 4 (str "sensor") rfl
    refine ⟨_, _, _, _, _, ?_, g1, g2, g3, g4, descStart_lt ds 0 1 (by omega) (by omega), descStart_lt ds 1 2 (by omega) (by omega), descStart_lt ds 2 3 (by omega) (by omega),
      descStart_lt ds 3 4 (by omega) (by omega)⟩
    rcases hf with rfl | rfl
    · exact Or.inl g0
    · exact Or.inr g0

/-- **C80**: an encoding that describes five fields, each with one of the names the class knows, is accepted if and only if the fields are in the order of the indices: 0 for
"subdet" or "system", 1 for "side", 2 for "layer", 3 for "module", 4 for "sensor". If it is accepted then it makes a bit field with these fields at these indices, and the text of a value
lists their numbers. Missing: encodings with more fields (see below). -/
theorem C80_indices_partial (ds : List FieldDesc) (h5 : ds.length = 5) (hn : ∀ d ∈ ds, d.name ∈ confNames) (hl : (commas (ds.map FieldDesc.text)).length < 2 ^ 63)
    (hg : GoodLayout (placed 0 ds)) (c : TrackerConf) (hc : c.accessed = false) :
    ((c.setEncoding (commas (ds.map FieldDesc.text))).1 = .ok () ↔
      ∃ first, (first = str "subdet" ∨ first = str "system") ∧ ds.map (·.name) = [first, str "side", str "layer", str "module", str "sensor"]) ∧
    ((c.setEncoding (commas (ds.map FieldDesc.text))).1 = .ok () → ∀ v,
      let c' := (c.setEncoding (commas (ds.map FieldDesc.text))).2
      ∃ b, BitField.make c'.encodingString.1 = .ok b ∧ layout b = placed 0 ds ∧
        (c'.valueString v).1 = .ok (List.intercalate (str ",") ((placed 0 ds).map fun e => e.name ++ str ":" ++ decInt (fieldNum e.signed (v.setWidth 64) e.offset e.width)))) := by
  have hset : c.setEncoding (commas (ds.map FieldDesc.text)) =
      if validEncoding (commas (ds.map FieldDesc.text)) then (.ok (), { c with encoding := commas (ds.map FieldDesc.text) }) else (.error .runtimeError, c) := by
    unfold TrackerConf.setEncoding
    rw [hc]
    cases validEncoding (commas (ds.map FieldDesc.text)) <;> rfl
  rw [hset]
  refine ⟨?_, ?_⟩
  · rw [← accepted_iff ds h5 hn, ← valid_iff _ hl]
    cases validEncoding (commas (ds.map FieldDesc.text)) <;> simp
  · intro h v
    by_cases hv : validEncoding (commas (ds.map FieldDesc.text)) = true
    · rw [if_pos hv]
      obtain ⟨b, hb, hlay⟩ := C50_describes ds hg
      refine ⟨b, hb, hlay, ?_⟩
      have := C50_values _ b hb (v.setWidth 64)
      simp only [TrackerConf.valueString, TrackerConf.setAccessed, TrackerConf.encodingString, hb]
      rw [this, ← hlay, layout, List.map_map]
      rfl
    · rw [if_neg hv] at h; cases h

/-- Five fields as in the theorem: with "system", and a first bit given. -/
def confSample : List FieldDesc :=
  [⟨str "system", none, 5, false⟩, ⟨str "side", none, 2, true⟩, ⟨str "layer", none, 9, false⟩, ⟨str "module", none, 8, false⟩, ⟨str "sensor", some 32, 8, false⟩]
example : confSample.length = 5 ∧ (∀ d ∈ confSample, d.name ∈ confNames) ∧ commas (confSample.map FieldDesc.text) = str "system:5,side:-2,layer:9,module:8,sensor:32:8" := by
  decide +kernel
example : GoodLayout (placed 0 confSample) := by
  refine ⟨?_, ?_⟩
  · simp only [confSample, placed, List.mem_cons, List.not_mem_nil, or_false, Option.getD]
    rintro e (rfl | rfl | rfl | rfl | rfl) <;> unfold GoodEntry <;> decide +kernel
  · simp only [confSample, placed, Option.getD, List.pairwise_cons, List.mem_cons, List.not_mem_nil, or_false]
    refine ⟨?_, ?_, ?_, ?_, ?_, List.Pairwise.nil⟩
    · rintro e (rfl | rfl | rfl | rfl) <;> intro k <;> simp only <;> omega
    · rintro e (rfl | rfl | rfl) <;> intro k <;> simp only <;> omega
    · rintro e (rfl | rfl) <;> intro k <;> simp only <;> omega
    · rintro e rfl; intro k; simp only; omega
    · intro e h; cases h

/-- A history with a refused text, an accepted one, a use, and a refused change. -/
def confCalls : List ConfCall :=
  [.setEncoding (str "side:2,subdet:5,layer:9,module:8,sensor:8"), .setEncoding (str "system:6,side:-2,layer:8,module:8,sensor:8"), .valueString 0x2c1,
   .setEncoding (str "subdet:5,side:-2,layer:9,module:8,sensor:8"), .encodingString]
example : ((({} : TrackerConf).calls confCalls).1 = [.error .runtimeError, .ok none, .ok (some (str "system:1,side:-1,layer:2,module:0,sensor:0")), .error .logicError,
    .ok (some (str "system:6,side:-2,layer:8,module:8,sensor:8"))]) := by
  decide +kernel

/-- **C80** fails for encodings with another field in front: the text is accepted, but index 0, which is meant to be "subdet", addresses the other field. -/
theorem C80_fails_for_other_fields : ∃ s b, (({} : TrackerConf).setEncoding s).1 = .ok () ∧ BitField.make s = .ok b ∧
    b.fields.map (·.name) = [str "x", str "subdet", str "side", str "layer", str "module", str "sensor"] := by
  exact ⟨str "x:1,subdet:5,side:-2,layer:9,module:8,sensor:8", (BitField.make (str "x:1,subdet:5,side:-2,layer:9,module:8,sensor:8")).toOption.getD {}, by decide +kernel, by decide +kernel, by decide +kernel⟩

/-- **C80** fails for texts that are no description of fields: such a text is accepted, and every later use of it throws. -/
theorem C80_fails_for_no_description : ∃ s, (({} : TrackerConf).setEncoding s).1 = .ok () ∧ ∀ v, ∃ e, ((({} : TrackerConf).setEncoding s).2.valueString v).1 = .error e := by
  refine ⟨str "subdet side layer module sensor", by decide +kernel, fun v => ?_⟩
  have h : (({} : TrackerConf).setEncoding (str "subdet side layer module sensor")).2 = { encoding := str "subdet side layer module sensor" } := by decide +kernel
  have h2 : ∃ e, BitField.make (str "subdet side layer module sensor") = .error e := ⟨.lcException, by decide +kernel⟩
  obtain ⟨e, h2⟩ := h2
  rw [h]
  simp only [TrackerConf.valueString, TrackerConf.setAccessed, TrackerConf.encodingString, h2]
  exact ⟨_, rfl⟩

end Props
