import Verif.Util.Dump
import Verif.Util.TextLemmas
import Verif.Props.SessionCases
/-
C97: what is printed.
-/
namespace Spec
open Sio Lcio Util

/-- Text without line ends and without a character. -/
def Without (c : Byte) (s : Str) : Prop := c ∉ s ∧ (10 : Byte) ∉ s

instance (c : Byte) (s : Str) : Decidable (Without c s) := inferInstanceAs (Decidable (_ ∧ _))

/-- The letters for the bits of the status of a particle, in the order in which they are printed: `[sbvtclso]`. -/
def statusLetters : List (Nat × Byte) := [(30, 115), (29, 98), (28, 118), (27, 116), (26, 99), (25, 108), (24, 115), (23, 111)]

/-- The same for the quality of a hit: `[os]`. -/
def qualityLetters : List (Nat × Byte) := [(31, 111), (30, 115)]

/-- Events for which the table of collections is readable: names without spaces and minus signs (as those that LCIO accepts, C07) that fit into their column, types without spaces that fit, and a detector name on one line. -/
def Readable (e : EventData) : Prop :=
  (10 : Byte) ∉ e.1.det ∧ ∀ c ∈ e.2, c.1 ≠ [] ∧ Without 32 c.1 ∧ (45 : Byte) ∉ c.1 ∧ c.1.length < 30 ∧ Without 32 c.2.type ∧ c.2.type.length < 25

/-- Parameters that are readable: no brackets in keys, no commas in values, and no line ends. -/
def ReadableParams (p : Params) : Prop :=
  (∀ e ∈ p.ints, Without 91 e.1) ∧ (∀ e ∈ p.floats, Without 91 e.1) ∧ ∀ e ∈ p.strs, Without 91 e.1 ∧ ∀ v ∈ e.2, Without 44 v

end Spec

namespace Props
open Sio Lcio Util Spec

/-! ## Cutting text -/

theorem cut_at (c : Byte) : ∀ (a a' b b' : Str), c ∉ a → c ∉ a' → a ++ c :: b = a' ++ c :: b' → a = a' ∧ b = b'
  | [], [], b, b', _, _, h => by simpa using h
  | [], x :: a', b, b', _, h2, h => by
    simp only [List.nil_append, List.cons_append, List.cons.injEq] at h
    exact absurd (h.1 ▸ List.mem_cons_self) h2
  | x :: a, [], b, b', h1, _, h => by
    simp only [List.nil_append, List.cons_append, List.cons.injEq] at h
    exact absurd (h.1 ▸ List.mem_cons_self) h1
  | x :: a, y :: a', b, b', h1, h2, h => by
    simp only [List.cons_append, List.cons.injEq] at h
    obtain ⟨h3, h4⟩ := cut_at c a a' b b' (fun hm => h1 (List.mem_cons_of_mem _ hm)) (fun hm => h2 (List.mem_cons_of_mem _ hm)) h.2
    exact ⟨by rw [h.1, h3], h4⟩

theorem dec_inj {m n : Nat} (h : dec m = dec n) : m = n := by rw [← dec_value m, ← dec_value n, h]

theorem dec_no (n : Nat) (c : Byte) (hc : isDigit c = false) : c ∉ dec n := fun h => by
  rw [dec_digits n c h] at hc
  cases hc

theorem decInt_no (n : Int) (c : Byte) (hc : isDigit c = false) (h2 : c ≠ 45) : c ∉ decInt n := by
  unfold decInt
  split
  · intro h
    rw [List.mem_append] at h
    rcases h with h | h
    · exact h2 (by simpa [str] using h)
    · exact dec_no _ _ hc h
  · exact dec_no _ _ hc

theorem decInt_inj {m n : Int} (h : decInt m = decInt n) : m = n := by
  have hno : ∀ k : Nat, (45 : Byte) ∉ dec k := fun k => dec_no k 45 (by decide)
  have hs : ∀ k : Nat, str "-" ++ dec k = 45 :: dec k := fun _ => rfl
  unfold decInt at h
  split at h <;> split at h
  · rw [hs, hs, List.cons.injEq] at h
    have := dec_inj h.2
    omega
  · rw [hs] at h
    exact absurd (h ▸ List.mem_cons_self) (hno _)
  · rw [hs] at h
    exact absurd (h ▸ List.mem_cons_self) (hno _)
  · have := dec_inj h
    omega

theorem decInt_ne_nil (n : Int) : decInt n ≠ [] := by
  unfold decInt
  split
  · simp [str]
  · exact dec_ne_nil _

/-! ## Status bits -/

/-- **C97**, status of particles: a letter is shown just if its bit is set, and a status of zero is shown as 0. -/
theorem C97_status (s : W32) : (simStatusText s = str "[    0   ]" ↔ s = 0) ∧ (simStatusText s).length = 10 ∧
    (s ≠ 0 → ∀ i bit c, statusLetters[i]? = some (bit, c) → (simStatusText s)[i + 1]? = some (if s.getLsbD bit then c else 32)) := by
  refine ⟨⟨fun h => ?_, fun h => by simp [simStatusText, h]⟩, ?_, fun hs i bit c h => ?_⟩
  · unfold simStatusText at h
    split at h
    · assumption
    · exfalso
      have h5 := congrArg (fun l => l[5]?) h
      simp only [str, letter] at h5
      revert h5
      cases s.getLsbD 26 <;> simp
  · unfold simStatusText
    split <;> rfl
  · unfold simStatusText
    rw [if_neg hs]
    simp only [statusLetters] at h
    rcases i with _ | _ | _ | _ | _ | _ | _ | _ | i
    all_goals first
      | (simp only [List.getElem?_cons_zero, List.getElem?_cons_succ, Option.some.injEq, Prod.mk.injEq] at h
         obtain ⟨rfl, rfl⟩ := h
         rfl)
      | simp at h

/-- **C97**, quality of hits: the same. -/
theorem C97_quality (q : W32) : (qualityText q = str "[   0   ]" ↔ q = 0) ∧ (qualityText q).length = 9 ∧
    (q ≠ 0 → ∀ i bit c, qualityLetters[i]? = some (bit, c) → (qualityText q)[i + 1]? = some (if q.getLsbD bit then c else 32)) := by
  refine ⟨⟨fun h => ?_, fun h => by simp [qualityText, h]⟩, ?_, fun hs i bit c h => ?_⟩
  · unfold qualityText at h
    split at h
    · assumption
    · exfalso
      have h5 := congrArg (fun l => l[4]?) h
      simp only [str, letter] at h5
      revert h5
      simp

  · unfold qualityText
    split <;> rfl
  · unfold qualityText
    rw [if_neg hs]
    simp only [qualityLetters] at h
    rcases i with _ | _ | i
    all_goals first
      | (simp only [List.getElem?_cons_zero, List.getElem?_cons_succ, Option.some.injEq, Prod.mk.injEq] at h
         obtain ⟨rfl, rfl⟩ := h
         rfl)
      | simp at h

/-! ## Events -/

theorem padLeft_cut (w : Nat) (s s' b b' : Str) (h : (32 : Byte) ∉ s) (h' : (32 : Byte) ∉ s') (hw : s.length < w) (hw' : s'.length < w) (e : padLeft w s ++ b = padLeft w s' ++ b') : s = s' ∧ b = b' := by
  have key : ∀ (t : Str) (d : Str), t.length < w → padLeft w t ++ d = t ++ 32 :: (List.replicate (w - t.length - 1) 32 ++ d) := by
    intro t d ht
    unfold padLeft
    obtain ⟨k, hk⟩ : ∃ k, w - t.length = k + 1 := ⟨w - t.length - 1, by omega⟩
    rw [hk, List.replicate_succ]
    simp
  rw [key _ _ hw, key _ _ hw'] at e
  obtain ⟨rfl, e2⟩ := cut_at 32 _ _ _ _ h h' e
  exact ⟨rfl, List.append_cancel_left e2⟩

theorem padRight_inj (w : Nat) (s s' : Str) (h : (32 : Byte) ∉ s) (h' : (32 : Byte) ∉ s') (e : padRight w s = padRight w s') : s = s' := by
  have key : ∀ t : Str, (32 : Byte) ∉ t → (padRight w t).dropWhile (fun c => c == 32) = t := by
    intro t ht
    unfold padRight
    rw [List.dropWhile_append_of_pos (by intro c hc; rw [List.eq_of_mem_replicate hc]; rfl)]
    cases t with
    | nil => rfl
    | cons x t => exact List.dropWhile_cons_of_neg (by simp only [beq_iff_eq]; rintro rfl; exact ht List.mem_cons_self)
  rw [← key s h, ← key s' h', e]

theorem padRight_no (w : Nat) (s : Str) (c : Byte) (h : c ∉ s) (hc : c ≠ 32) : c ∉ padRight w s := by
  unfold padRight
  intro hm
  rw [List.mem_append] at hm
  rcases hm with hm | hm
  · exact hc (List.eq_of_mem_replicate hm)
  · exact h hm

theorem padLeft_no (w : Nat) (s : Str) (c : Byte) (h : c ∉ s) (hc : c ≠ 32) : c ∉ padLeft w s := by
  unfold padLeft
  intro hm
  rw [List.mem_append] at hm
  rcases hm with hm | hm
  · exact h hm
  · exact hc (List.eq_of_mem_replicate hm)

/-- A row of the table without its line end. -/
def rowOf (c : Str × Collection) : Str := padLeft 30 c.1 ++ (padLeft 25 c.2.type ++ padRight 9 (decInt c.2.elems.length))

theorem dumpCol_row (c : Str × Collection) : (dumpCol c).flatten = rowOf c ++ [10] := by simp [dumpCol, rowOf, eol]

/-- What the table shows about a collection. -/
def shownCol (c : Str × Collection) : Str × Str × Nat := (c.1, c.2.type, c.2.elems.length)

theorem row_inj (c c' : Str × Collection) (h : Without 32 c.1 ∧ c.1.length < 30 ∧ Without 32 c.2.type ∧ c.2.type.length < 25)
    (h' : Without 32 c'.1 ∧ c'.1.length < 30 ∧ Without 32 c'.2.type ∧ c'.2.type.length < 25) (e : rowOf c = rowOf c') : shownCol c = shownCol c' := by
  unfold rowOf at e
  obtain ⟨e1, e2⟩ := padLeft_cut 30 _ _ _ _ h.1.1 h'.1.1 h.2.1 h'.2.1 e
  obtain ⟨e3, e4⟩ := padLeft_cut 25 _ _ _ _ h.2.2.1.1 h'.2.2.1.1 h.2.2.2 h'.2.2.2 e2
  have e5 := decInt_inj (padRight_inj 9 _ _ (decInt_no _ 32 (by decide) (by decide)) (decInt_no _ 32 (by decide) (by decide)) e4)
  unfold shownCol
  rw [e1, e3, Int.ofNat_inj.1 e5]

theorem row_no (c : Str × Collection) (h : Without 32 c.1 ∧ Without 32 c.2.type) : (10 : Byte) ∉ rowOf c := by
  unfold rowOf
  simp only [List.mem_append, not_or]
  exact ⟨padLeft_no _ _ _ h.1.2 (by decide), padLeft_no _ _ _ h.2.2 (by decide), padRight_no _ _ _ (decInt_no _ 10 (by decide) (by decide)) (by decide)⟩

theorem row_head (c : Str × Collection) (h1 : c.1 ≠ []) (h2 : (45 : Byte) ∉ c.1) (b : Str) : ∃ x b', rowOf c ++ b = x :: b' ∧ x ≠ 45 := by
  obtain ⟨n, d⟩ := c
  cases n with
  | nil => exact absurd rfl h1
  | cons x n => exact ⟨x, _, rfl, fun e => h2 (e ▸ List.mem_cons_self)⟩

/-- The rows, with what follows. -/
theorem rows_inj (b b' : Str) : ∀ cs cs' : List (Str × Collection),
    (∀ c ∈ cs, c.1 ≠ [] ∧ Without 32 c.1 ∧ (45 : Byte) ∉ c.1 ∧ c.1.length < 30 ∧ Without 32 c.2.type ∧ c.2.type.length < 25) →
    (∀ c ∈ cs', c.1 ≠ [] ∧ Without 32 c.1 ∧ (45 : Byte) ∉ c.1 ∧ c.1.length < 30 ∧ Without 32 c.2.type ∧ c.2.type.length < 25) →
    (cs.map dumpCol).flatten.flatten ++ 45 :: b = (cs'.map dumpCol).flatten.flatten ++ 45 :: b' → cs.map shownCol = cs'.map shownCol
  | [], [], _, _, _ => rfl
  | [], c :: cs, _, h, e => by
    obtain ⟨g1, g2, g3, g4, g5, g6⟩ := h c List.mem_cons_self
    simp only [List.map_nil, List.flatten_nil, List.nil_append, List.map_cons, List.flatten_cons, List.flatten_append, dumpCol_row, List.append_assoc] at e
    obtain ⟨x, b'', e1, e2⟩ := row_head c g1 g3 ([10] ++ ((cs.map dumpCol).flatten.flatten ++ 45 :: b'))
    rw [e1, List.cons.injEq] at e
    exact absurd e.1.symm e2
  | c :: cs, [], h, _, e => by
    obtain ⟨g1, g2, g3, g4, g5, g6⟩ := h c List.mem_cons_self
    simp only [List.map_nil, List.flatten_nil, List.nil_append, List.map_cons, List.flatten_cons, List.flatten_append, dumpCol_row, List.append_assoc] at e
    obtain ⟨x, b'', e1, e2⟩ := row_head c g1 g3 ([10] ++ ((cs.map dumpCol).flatten.flatten ++ 45 :: b))
    rw [e1, List.cons.injEq] at e
    exact absurd e.1 e2
  | c :: cs, c' :: cs', h, h', e => by
    obtain ⟨g1, g2, g3, g4, g5, g6⟩ := h c List.mem_cons_self
    obtain ⟨k1, k2, k3, k4, k5, k6⟩ := h' c' List.mem_cons_self
    simp only [List.map_cons, List.flatten_cons, List.flatten_append, dumpCol_row, List.append_assoc, List.singleton_append] at e
    obtain ⟨e1, e2⟩ := cut_at 10 _ _ _ _ (row_no c ⟨g2, g5⟩) (row_no c' ⟨k2, k5⟩) e
    rw [List.map_cons, List.map_cons, row_inj c c' ⟨g2, g4, g5, g6⟩ ⟨k2, k4, k5, k6⟩ e1,
      rows_inj b b' cs cs' (fun c hc => h c (List.mem_cons_of_mem _ hc)) (fun c hc => h' c (List.mem_cons_of_mem _ hc)) e2]

/-- The texts between the numbers. -/
theorem eventText_parts (e : EventData) : eventText e = slashes ++ (10 :: (str "EVENT: " ++ (decInt e.1.evt.toInt ++ 10 :: (str "RUN: " ++ (decInt e.1.run.toInt ++ 10 :: (str "DETECTOR: " ++ (e.1.det ++ 10 ::
    ((str "COLLECTIONS: (see below)" ++ eol ++ slashes ++ eol ++ eol ++ dashes ++ eol ++ padLeft 30 (str "COLLECTION NAME") ++ padLeft 25 (str "COLLECTION TYPE") ++ padLeft 20 (str "NUMBER OF ELEMENTS") ++ eol ++
      equalSigns ++ eol) ++ ((e.2.map dumpCol).flatten.flatten ++ 45 :: (dashes.tail ++ eol ++ eol ++ eol ++ eol)))))))))) := by
  have hd : dashes = 45 :: dashes.tail := rfl
  have h1 : [dashes, eol, eol, eol, eol].flatten = 45 :: (dashes.tail ++ eol ++ eol ++ eol ++ eol) := by
    conv_lhs => rw [hd]
    simp only [List.flatten_cons, List.flatten_nil, List.append_nil, List.cons_append, List.append_assoc]
  unfold eventText dumpEvent
  rw [List.flatten_append, List.flatten_append, h1]
  simp only [List.flatten_cons, List.flatten_nil, List.append_nil, List.append_assoc]
  rfl

/-- **C97**, events: if the tables printed for two events are the same, then so are the numbers of the events and runs, the names of the detectors, and the names, types and sizes of the collections.

Missing: names and types that do not fit into their columns or have spaces, see `C97_fails_long_names`. -/
theorem C97_events_partial (e e' : EventData) (h : Readable e) (h' : Readable e') (ht : eventText e = eventText e') :
    e.1.evt = e'.1.evt ∧ e.1.run = e'.1.run ∧ e.1.det = e'.1.det ∧ e.2.map (fun c => (c.1, c.2.type, c.2.elems.length)) = e'.2.map (fun c => (c.1, c.2.type, c.2.elems.length)) := by
  rw [eventText_parts, eventText_parts] at ht
  have h1 := List.append_cancel_left (List.cons.inj (List.append_cancel_left ht)).2
  obtain ⟨a1, h2⟩ := cut_at 10 _ _ _ _ (decInt_no _ 10 (by decide) (by decide)) (decInt_no _ 10 (by decide) (by decide)) h1
  obtain ⟨a2, h3⟩ := cut_at 10 _ _ _ _ (decInt_no _ 10 (by decide) (by decide)) (decInt_no _ 10 (by decide) (by decide)) (List.append_cancel_left h2)
  obtain ⟨a3, h4⟩ := cut_at 10 _ _ _ _ h.1 h'.1 (List.append_cancel_left h3)
  have h5 := List.append_cancel_left h4
  exact ⟨BitVec.eq_of_toInt_eq (decInt_inj a1), BitVec.eq_of_toInt_eq (decInt_inj a2), a3, rows_inj _ _ e.2 e'.2 h.2 h'.2 h5⟩

/-- An event with collections. -/
example : Readable ({ run := 3, evt := 9, det := str "ILD" }, [(str "MC", mcCol [(5, [])]), (str "Tracks", { type := str "Track" })]) :=
  ⟨by decide, by simp only [List.mem_cons, List.not_mem_nil, or_false]; rintro c (rfl | rfl) <;> exact ⟨by decide, ⟨by decide, by decide⟩, by decide, by decide, ⟨by decide, by decide⟩, by decide⟩⟩

/-- **C97 fails** for names that are too long: the columns run into each other, and collections with other names and types are shown as the same. -/
theorem C97_fails_long_names : ∃ e e' : EventData, eventText e = eventText e' ∧ (∀ c ∈ e.2 ++ e'.2, validate c.1 = true) ∧ e.2.map (·.1) ≠ e'.2.map (·.1) := by
  refine ⟨({}, [(List.replicate 31 120, { type := List.replicate 25 97 })]), ({}, [(List.replicate 30 120, { type := 120 :: List.replicate 25 97 })]), ?_, by decide, by decide⟩
  rw [eventText_parts, eventText_parts]
  rfl

/-! ## Parameters -/

/-- A parameter as it is shown: its type, key and values. -/
abbrev Shown := Str × Str × List Str

def shownText (x : Shown) : Str :=
  str " parameter " ++ x.2.1 ++ str " [" ++ x.1 ++ str "]: " ++ (if x.2.2.length = 0 then str " [empty] " ++ eol else []) ++ (x.2.2.map fun v => v ++ str ", ").flatten ++ eol

theorem paramText_shown (kind : Str) {α : Type} (f : α → Str) (e : Str × List α) : paramText kind f e = shownText (kind, e.1, e.2.map f) := by
  simp [paramText, shownText, List.map_map, Function.comp_def]

/-- Without its last line end, and without the first of two. -/
def shownBody (vs : List Str) : Str := if vs.length = 0 then str " [empty] " else (vs.map fun v => v ++ str ", ").flatten

theorem values_inj : ∀ vs vs' : List Str, (∀ v ∈ vs, (44 : Byte) ∉ v) → (∀ v ∈ vs', (44 : Byte) ∉ v) →
    (vs.map fun v => v ++ str ", ").flatten = (vs'.map fun v => v ++ str ", ").flatten → vs = vs'
  | [], [], _, _, _ => rfl
  | [], v :: vs, _, _, e => by simp [str] at e
  | v :: vs, [], _, _, e => by simp [str] at e
  | v :: vs, v' :: vs', h, h', e => by
    have hs : str ", " = [44, 32] := rfl
    simp only [List.map_cons, List.flatten_cons, hs, List.append_assoc, List.cons_append, List.nil_append] at e
    obtain ⟨e1, e2⟩ := cut_at 44 _ _ _ _ (h v List.mem_cons_self) (h' v' List.mem_cons_self) e
    rw [List.cons.injEq] at e2
    rw [e1, values_inj vs vs' (fun v hv => h v (List.mem_cons_of_mem _ hv)) (fun v hv => h' v (List.mem_cons_of_mem _ hv)) (by rw [hs]; exact e2.2)]

theorem body_inj (vs vs' : List Str) (h : ∀ v ∈ vs, (44 : Byte) ∉ v) (h' : ∀ v ∈ vs', (44 : Byte) ∉ v) (e : shownBody vs = shownBody vs') : vs = vs' := by
  have hmem : ∀ v (vs : List Str), (44 : Byte) ∈ ((v :: vs).map fun v => v ++ str ", ").flatten := by
    intro v vs
    simp [str]
  have hno : (44 : Byte) ∉ str " [empty] " := by decide
  unfold shownBody at e
  cases vs with
  | nil =>
    cases vs' with
    | nil => rfl
    | cons v' vs' =>
      rw [if_pos (List.length_nil), if_neg (by simp)] at e
      exact absurd (e ▸ hmem v' vs') hno
  | cons v vs =>
    cases vs' with
    | nil =>
      rw [if_pos (List.length_nil), if_neg (by simp)] at e
      exact absurd (e ▸ hmem v vs) hno
    | cons v' vs' =>
      rw [if_neg (by simp), if_neg (by simp)] at e
      exact values_inj _ _ h h' e

/-- What can be shown. -/
def ShownOk (x : Shown) : Prop := Without 93 x.1 ∧ Without 91 x.2.1 ∧ ∀ v ∈ x.2.2, Without 44 v

theorem shownText_parts (x : Shown) (b : Str) : shownText x ++ b = (str " parameter " ++ ((x.2.1 ++ [32]) ++ 91 :: (x.1 ++ 93 :: (str ": " ++ shownBody x.2.2)))) ++ 10 :: ((if x.2.2.length = 0 then [10] else []) ++ b) := by
  have h1 : str " [" = [32] ++ [91] := rfl
  have h2 : str "]: " = 93 :: str ": " := rfl
  have h3 : str " [empty] " ++ eol ++ ([] ++ eol) = str " [empty] " ++ (10 :: [10]) := rfl
  unfold shownText shownBody
  rw [h1, h2]
  cases hx : x.2.2 with
  | nil => simp [eol]
  | cons v vs => simp [eol]

theorem front_no (x : Shown) (h : ShownOk x) : (10 : Byte) ∉ str " parameter " ++ ((x.2.1 ++ [32]) ++ 91 :: (x.1 ++ 93 :: (str ": " ++ shownBody x.2.2))) := by
  obtain ⟨h1, h2, h3⟩ := h
  have hb : (10 : Byte) ∉ shownBody x.2.2 := by
    unfold shownBody
    split
    · decide
    · intro hm
      simp only [List.mem_flatten, List.mem_map] at hm
      obtain ⟨l, ⟨v, hv, rfl⟩, hm⟩ := hm
      rw [List.mem_append] at hm
      rcases hm with hm | hm
      · exact (h3 v hv).2 hm
      · exact absurd hm (by decide)
  have ha : (10 : Byte) ∉ str " parameter " := by decide
  have hc : (10 : Byte) ∉ str ": " := by decide
  simp only [List.mem_append, List.mem_cons, not_or, List.not_mem_nil]
  exact ⟨ha, ⟨h2.2, by decide, not_false⟩, by decide, h1.2, by decide, hc, hb⟩

theorem shown_inj : ∀ xs xs' : List Shown, (∀ x ∈ xs, ShownOk x) → (∀ x ∈ xs', ShownOk x) → (xs.map shownText).flatten = (xs'.map shownText).flatten → xs = xs'
  | [], [], _, _, _ => rfl
  | [], x :: xs, _, _, e => by
    rw [List.map_cons, List.flatten_cons, shownText_parts] at e
    simp at e
  | x :: xs, [], _, _, e => by
    rw [List.map_cons, List.flatten_cons, shownText_parts] at e
    simp at e
  | x :: xs, x' :: xs', h, h', e => by
    have hx := h x List.mem_cons_self
    have hx' := h' x' List.mem_cons_self
    rw [List.map_cons, List.flatten_cons, shownText_parts, List.map_cons, List.flatten_cons, shownText_parts] at e
    obtain ⟨e1, e2⟩ := cut_at 10 _ _ _ _ (front_no x hx) (front_no x' hx') e
    have e3 := List.append_cancel_left e1
    have hk : ∀ y : Shown, ShownOk y → (91 : Byte) ∉ y.2.1 ++ [32] := by
      intro y hy hm
      rw [List.mem_append] at hm
      rcases hm with hm | hm
      · exact hy.2.1.1 hm
      · exact absurd hm (by decide)
    obtain ⟨e4, e5⟩ := cut_at 91 _ _ _ _ (hk x hx) (hk x' hx') e3
    obtain ⟨e6, e7⟩ := cut_at 93 _ _ _ _ hx.1.1 hx'.1.1 e5
    have e8 := body_inj _ _ (fun v hv => (hx.2.2 v hv).1) (fun v hv => (hx'.2.2 v hv).1) (List.append_cancel_left e7)
    have hxx : x = x' := by
      obtain ⟨a, b, c⟩ := x
      obtain ⟨a', b', c'⟩ := x'
      simp only at e4 e6 e8
      rw [e6, List.append_cancel_right e4, e8]
    subst hxx
    rw [shown_inj xs xs' (fun x hx => h x (List.mem_cons_of_mem _ hx)) (fun x hx => h' x (List.mem_cons_of_mem _ hx)) (List.append_cancel_left e2)]

/-- The parameters in the order in which they are shown. -/
def shownParams (num : NumText) (p : Params) : List Shown :=
  p.ints.map (fun e => (str "int", e.1, e.2.map fun v => decInt v.toInt)) ++ p.floats.map (fun e => (str "float", e.1, e.2.map num.out32)) ++ p.strs.map (fun e => (str "string", e.1, e.2))

theorem printParameters_shown (num : NumText) (p : Params) : printParameters num p = ((shownParams num p).map shownText).flatten := by
  have hm : ∀ (kind : Str) {α : Type} (f : α → Str) (l : List (Str × List α)), l.map (paramText kind f) = (l.map fun e => ((kind, e.1, e.2.map f) : Shown)).map shownText := by
    intro kind α f l
    rw [List.map_map]
    exact List.map_congr_left fun e _ => paramText_shown kind f e
  unfold printParameters shownParams
  rw [hm, hm, hm]
  simp only [List.map_append, List.flatten_append, List.map_id]

theorem kind_split (is fs ss is' fs' ss' : List Shown) (h1 : ∀ x ∈ is ++ is', x.1 = str "int") (h2 : ∀ x ∈ fs ++ fs', x.1 = str "float") (h3 : ∀ x ∈ ss ++ ss', x.1 = str "string")
    (e : is ++ fs ++ ss = is' ++ fs' ++ ss') : is = is' ∧ fs = fs' ∧ ss = ss' := by
  have hall : ∀ (k : Str) (l : List Shown), (∀ x ∈ l, x.1 = k) → l.filter (fun x => x.1 == k) = l := fun k l h => List.filter_eq_self.2 fun x hx => by simp [h x hx]
  have hnone : ∀ (k k' : Str) (l : List Shown), k ≠ k' → (∀ x ∈ l, x.1 = k) → l.filter (fun x => x.1 == k') = [] := fun k k' l hk h =>
    List.filter_eq_nil_iff.2 fun x hx => by simp [h x hx, hk]
  have g1 : ∀ x ∈ is, x.1 = str "int" := fun x hx => h1 x (List.mem_append_left _ hx)
  have g1' : ∀ x ∈ is', x.1 = str "int" := fun x hx => h1 x (List.mem_append_right _ hx)
  have g2 : ∀ x ∈ fs, x.1 = str "float" := fun x hx => h2 x (List.mem_append_left _ hx)
  have g2' : ∀ x ∈ fs', x.1 = str "float" := fun x hx => h2 x (List.mem_append_right _ hx)
  have g3 : ∀ x ∈ ss, x.1 = str "string" := fun x hx => h3 x (List.mem_append_left _ hx)
  have g3' : ∀ x ∈ ss', x.1 = str "string" := fun x hx => h3 x (List.mem_append_right _ hx)
  refine ⟨?_, ?_, ?_⟩
  · have := congrArg (List.filter fun x => x.1 == str "int") e
    simpa only [List.filter_append, hall _ _ g1, hall _ _ g1', hnone _ (str "int") _ (by decide) g2, hnone _ (str "int") _ (by decide) g2', hnone _ (str "int") _ (by decide) g3,
      hnone _ (str "int") _ (by decide) g3', List.append_nil] using this
  · have := congrArg (List.filter fun x => x.1 == str "float") e
    simpa only [List.filter_append, hall _ _ g2, hall _ _ g2', hnone _ (str "float") _ (by decide) g1, hnone _ (str "float") _ (by decide) g1', hnone _ (str "float") _ (by decide) g3,
      hnone _ (str "float") _ (by decide) g3', List.append_nil, List.nil_append] using this
  · have := congrArg (List.filter fun x => x.1 == str "string") e
    simpa only [List.filter_append, hall _ _ g3, hall _ _ g3', hnone _ (str "string") _ (by decide) g1, hnone _ (str "string") _ (by decide) g1', hnone _ (str "string") _ (by decide) g2,
      hnone _ (str "string") _ (by decide) g2', List.append_nil, List.nil_append] using this

theorem map_inj {α β : Type} (f : α → β) (hf : ∀ a b, f a = f b → a = b) : ∀ l l' : List α, l.map f = l'.map f → l = l'
  | [], [], _ => rfl
  | [], _ :: _, h => by simp at h
  | _ :: _, [], h => by simp at h
  | a :: l, b :: l', h => by
    simp only [List.map_cons, List.cons.injEq] at h
    rw [hf a b h.1, map_inj f hf l l' h.2]

/-- **C97**, parameters: if what is printed for two sets of parameters is the same, then they have the same integers and strings, and floats that are printed the same way.

Missing: keys with brackets and strings with commas or line ends, see `C97_fails_commas`. -/
theorem C97_parameters_partial (num : NumText) (hnum : ∀ v, Without 44 (num.out32 v)) (p q : Params) (hp : ReadableParams p) (hq : ReadableParams q) (h : printParameters num p = printParameters num q) :
    p.ints = q.ints ∧ p.strs = q.strs ∧ p.floats.map (fun e => (e.1, e.2.map num.out32)) = q.floats.map (fun e => (e.1, e.2.map num.out32)) := by
  have hok : ∀ r : Params, ReadableParams r → ∀ x ∈ shownParams num r, ShownOk x := by
    rintro r ⟨h1, h2, h3⟩ x hx
    unfold shownParams at hx
    simp only [List.mem_append, List.mem_map] at hx
    rcases hx with (⟨e, he, rfl⟩ | ⟨e, he, rfl⟩) | ⟨e, he, rfl⟩
    · refine ⟨(by decide : Without 93 (str "int")), h1 e he, ?_⟩
      intro v hv
      simp only [List.mem_map] at hv
      obtain ⟨w, -, rfl⟩ := hv
      exact ⟨decInt_no _ _ (by decide) (by decide), decInt_no _ _ (by decide) (by decide)⟩
    · refine ⟨(by decide : Without 93 (str "float")), h2 e he, ?_⟩
      intro v hv
      simp only [List.mem_map] at hv
      obtain ⟨w, -, rfl⟩ := hv
      exact hnum w
    · exact ⟨(by decide : Without 93 (str "string")), (h3 e he).1, (h3 e he).2⟩
  rw [printParameters_shown, printParameters_shown] at h
  have he := shown_inj _ _ (hok p hp) (hok q hq) h
  unfold shownParams at he
  obtain ⟨e1, e2, e3⟩ := kind_split _ _ _ _ _ _ (by simp only [List.mem_append, List.mem_map]; rintro x (⟨_, _, rfl⟩ | ⟨_, _, rfl⟩) <;> rfl)
    (by simp only [List.mem_append, List.mem_map]; rintro x (⟨_, _, rfl⟩ | ⟨_, _, rfl⟩) <;> rfl)
    (by simp only [List.mem_append, List.mem_map]; rintro x (⟨_, _, rfl⟩ | ⟨_, _, rfl⟩) <;> rfl) he
  refine ⟨map_inj _ ?_ _ _ e1, map_inj _ ?_ _ _ e3, ?_⟩
  · rintro ⟨a, b⟩ ⟨a', b'⟩ hh
    simp only [Prod.mk.injEq, true_and] at hh
    rw [hh.1, map_inj _ (fun v w hvw => BitVec.eq_of_toInt_eq (decInt_inj hvw)) _ _ hh.2]
  · rintro ⟨a, b⟩ ⟨a', b'⟩ hh
    simp only [Prod.mk.injEq, true_and] at hh
    rw [hh.1, hh.2]
  · have := congrArg (List.map fun x : Shown => x.2) e2
    simpa only [List.map_map, Function.comp_def] using this

/-- Numbers printed in some way. -/
def plainNum : NumText := ⟨fun v => dec v.toNat, fun v => dec v.toNat, fun v => dec v.toNat, fun v => dec v.toNat, fun _ => 0⟩

example : (∀ v, Without 44 (plainNum.out32 v)) ∧ ReadableParams { ints := [(str "a", [1, 2]), (str "b", [])], strs := [(str "c", [str "x y", str ""])] } :=
  ⟨fun v => ⟨dec_no _ _ (by decide), dec_no _ _ (by decide)⟩, by
    refine ⟨?_, ?_, ?_⟩
    · simp only [List.mem_cons, List.not_mem_nil, or_false]; rintro e (rfl | rfl) <;> exact ⟨by decide, by decide⟩
    · intro e he; cases he
    · simp only [List.mem_cons, List.not_mem_nil, or_false]; rintro e rfl
      exact ⟨⟨by decide, by decide⟩, by simp only [List.mem_cons, List.not_mem_nil, or_false]; rintro v (rfl | rfl) <;> exact ⟨by decide, by decide⟩⟩⟩

/-- **C97 fails** for strings with commas: two strings are printed as one with a comma is. -/
theorem C97_fails_commas (num : NumText) : printParameters num { strs := [(str "k", [str "a", str "b"])] } = printParameters num { strs := [(str "k", [str "a, b"])] } := rfl

/-! ## Particles -/

theorem lookup_put (m : List (Nat × Nat)) (a k b : Nat) : (putIndex m a k).lookup b = if b = a then some k else m.lookup b := by
  unfold putIndex
  rw [List.lookup_cons]
  by_cases h : b = a
  · simp [h]
  · rw [if_neg h]
    have : (b == a) = false := by simp [h]
    rw [this]
    show (m.filter fun x => x.1 ≠ a).lookup b = m.lookup b
    clear this
    induction m with
    | nil => rfl
    | cons x m ih =>
      simp only [List.filter_cons]
      by_cases hx : x.1 = a
      · have hbx : (b == x.1) = false := by simp [hx, h]
        rw [if_neg (by simp [hx]), ih, List.lookup_cons, hbx]
      · rw [if_pos (by simp [hx]), List.lookup_cons, List.lookup_cons, ih]

/-- The map after the loop: the position of an element that comes only once. -/
theorem fill_lookup : ∀ (as : List Nat) (m : List (Nat × Nat)) (k b : Nat), as.Nodup →
    (fillIndex m k as).lookup b = if b ∈ as then some (k + as.idxOf b) else m.lookup b
  | [], m, k, b, _ => by simp [fillIndex]
  | a :: as, m, k, b, h => by
    rw [List.nodup_cons] at h
    unfold fillIndex
    rw [fill_lookup as _ _ b h.2, lookup_put]
    by_cases hb : b = a
    · subst hb
      rw [if_neg h.1, if_pos rfl, if_pos List.mem_cons_self]
      simp
    · rw [if_neg hb]
      have hm : b ∈ a :: as ↔ b ∈ as := by simp [hb]
      simp only [hm]
      by_cases hm' : b ∈ as
      · rw [if_pos hm', if_pos hm', List.idxOf_cons_ne _ (Ne.symm hb)]
        congr 1
        omega
      · rw [if_neg hm', if_neg hm']

/-- Lists of positions are shown so that they can be read. -/
theorem commas_inj (ps ps' : List Nat) (h : commas (ps.map dec) = commas (ps'.map dec)) : ps = ps' := by
  rw [commas_joined, commas_joined] at h
  have hw : ∀ qs : List Nat, ∀ w ∈ qs.map dec, (44 : Byte) ∉ w ∧ w ≠ [] := by
    intro qs w hw
    simp only [List.mem_map] at hw
    obtain ⟨n, -, rfl⟩ := hw
    exact ⟨dec_no _ _ (by decide), dec_ne_nil n⟩
  have := congrArg (tokens 44) h
  rw [tokens_joined 44 _ (hw ps), tokens_joined 44 _ (hw ps')] at this
  exact map_inj dec (fun _ _ => dec_inj) _ _ this

theorem commas_no (ps : List Nat) (c : Byte) (h1 : isDigit c = false) (h2 : c ≠ 44) : c ∉ commas (ps.map dec) := by
  induction ps with
  | nil => simp [commas]
  | cons p ps ih =>
    cases ps with
    | nil => exact dec_no p c h1
    | cons q ps =>
      show c ∉ dec p ++ str "," ++ commas ((q :: ps).map dec)
      simp only [List.mem_append, not_or]
      exact ⟨⟨dec_no p c h1, by simpa [str] using h2⟩, ih⟩

/-- **C97**, particles: the positions of parents and daughters at the end of a line can be read from it. -/
theorem C97_family_readable (ps ds ps' ds' : List Nat) (b b' : Str) (h : mcFamily ps ds ++ b = mcFamily ps' ds' ++ b') : ps = ps' ∧ ds = ds' ∧ b = b' := by
  have key : ∀ (x y : List Nat) (c : Str), mcFamily x y ++ c = str " [" ++ (commas (x.map dec) ++ 93 :: (str " - [" ++ (commas (y.map dec) ++ 93 :: (str " " ++ eol ++ c)))) := by
    intro x y c
    have h1 : str "] - [" = 93 :: str " - [" := rfl
    have h2 : str "] " = 93 :: str " " := rfl
    unfold mcFamily
    rw [h1, h2]
    simp
  rw [key, key] at h
  obtain ⟨e1, e2⟩ := cut_at 93 _ _ _ _ (commas_no ps 93 (by decide) (by decide)) (commas_no ps' 93 (by decide) (by decide)) (List.append_cancel_left h)
  obtain ⟨e3, e4⟩ := cut_at 93 _ _ _ _ (commas_no ds 93 (by decide) (by decide)) (commas_no ds' 93 (by decide) (by decide)) (List.append_cancel_left e2)
  exact ⟨commas_inj _ _ e1, commas_inj _ _ e3, List.append_cancel_left e4⟩

theorem mcLines_get (num : NumText) (h : Nat → MCParticle) (ids : Nat → Int) (m : List (Nat × Nat)) : ∀ (as : List Nat) (k : Nat), (0 : Nat) ∉ as →
    ∃ ls, mcLines num h ids m k as = .ok ls ∧ ls.length = as.length ∧ ∀ i a, as[i]? = some a →
      ls[i]? = some (mcFront num h (ids a) (k + i) (h a) ++ mcFamily ((h a).parents.map (indexIn m)) ((h a).daughters.map (indexIn m)))
  | [], k, _ => ⟨[], rfl, rfl, fun i a hi => by simp at hi⟩
  | a :: as, k, h0 => by
    obtain ⟨ls, h1, h2, h3⟩ := mcLines_get num h ids m as (k + 1) fun hm => h0 (List.mem_cons_of_mem _ hm)
    have ha : a ≠ 0 := fun e => h0 (e ▸ List.mem_cons_self)
    refine ⟨_, by unfold mcLines mcLine; rw [if_neg ha]; simp only [h1]; rfl, by simp [h2], fun i b hi => ?_⟩
    cases i with
    | zero =>
      simp only [List.getElem?_cons_zero, Option.some.injEq] at hi
      subst hi
      rfl
    | succ i =>
      simp only [List.getElem?_cons_succ] at hi ⊢
      rw [h3 i b hi, show k + 1 + i = k + (i + 1) by omega]

/-- **C97**, particles: for a collection of MCParticles there is one line for each of them, in their order, with its number (`id()`), position and other values, and with the positions of its parents and daughters in the collection.

Missing: particles that are in the collection twice, or whose parents or daughters are not in it, see `C97_fails_lost_parent` and `C97_fails_twice`; null pointers in the collection, which are used. -/
theorem C97_particles_partial (num : NumText) (flagText : Str) (h : Nat → MCParticle) (ids : Nat → Int) (params : Params) (elems : List Nat) (h0 : (0 : Nat) ∉ elems) (hn : elems.Nodup)
    (hfam : ∀ a ∈ elems, ∀ b ∈ (h a).parents ++ (h a).daughters, b ∈ elems) :
    ∃ lines, printMCParticles num flagText h ids (str "MCParticle") params elems = .ok (some (mcHead flagText num params, lines)) ∧ lines.length = elems.length ∧
      ∀ i a, elems[i]? = some a → ∃ ps ds, lines[i]? = some (mcFront num h (ids a) i (h a) ++ mcFamily ps ds) ∧
        ps.map (fun k => elems[k]?) = (h a).parents.map some ∧ ds.map (fun k => elems[k]?) = (h a).daughters.map some := by
  obtain ⟨ls, h1, h2, h3⟩ := mcLines_get num h ids (fillIndex [] 0 elems) elems 0 h0
  refine ⟨ls, by unfold printMCParticles; rw [if_neg (by simp), h1], h2, fun i a hi => ?_⟩
  have hpos : ∀ bs : List Nat, (∀ b ∈ bs, b ∈ elems) → (bs.map (indexIn (fillIndex [] 0 elems))).map (fun k => elems[k]?) = bs.map some := by
    intro bs hb
    rw [List.map_map]
    refine List.map_congr_left fun b hm => ?_
    show elems[indexIn (fillIndex [] 0 elems) b]? = some b
    unfold indexIn
    rw [fill_lookup elems [] 0 b hn, if_pos (hb b hm)]
    simp only [Nat.zero_add, Option.getD_some]
    exact List.getElem?_idxOf (hb b hm)
  refine ⟨_, _, by rw [h3 i a hi, Nat.zero_add], hpos _ fun b hb => hfam a (List.mem_of_getElem? hi) b (List.mem_append_left _ hb), hpos _ fun b hb => hfam a (List.mem_of_getElem? hi) b (List.mem_append_right _ hb)⟩

end Props

namespace Spec
open Sio Lcio Util

/-- Where a particle ends: at the vertex of its first daughter whose vertex is its endpoint (bit 28 not set), if it has one and its own endpoint was not set (bit 31). -/
def EndsAt (h : Nat → MCParticle) (o : MCParticle) (v : List W64) : Prop :=
  (o.simStatus.getLsbD 31 = true ∨ ∀ d ∈ o.daughters, (h d).simStatus.getLsbD 28 = true) ∧ v = o.endpoint ∨
  o.simStatus.getLsbD 31 = false ∧ ∃ before d after, o.daughters = before ++ d :: after ∧ (∀ b ∈ before, (h b).simStatus.getLsbD 28 = true) ∧ (h d).simStatus.getLsbD 28 = false ∧ v = (h d).vertex

/-- What a line shows of a particle, in the order of the title: number and position, PDG, momentum, momentum at the endpoint, energy, status of the generator and of the simulation, vertex, endpoint, mass, charge, spin and colour flow. -/
def particleColumns (num : NumText) (id : Str) (index : Nat) (o : MCParticle) (endpoint : List W64) : List Str :=
  [str "[" ++ id ++ str "]" ++ padRight 5 (dec index), padRight 10 (decInt o.pdg.toInt), commas (o.p.map num.exp64), commas (o.pEndpoint.map num.exp64), num.exp64 (num.energy o.p o.mass),
    str " " ++ decInt o.genStatus.toInt ++ str " ", simStatusText o.simStatus, commas (o.vertex.map num.exp64), commas (endpoint.map num.exp64), num.exp64 o.mass, num.exp32 o.charge,
    commas (o.spin.map num.exp32), str "  (" ++ decInt (o.colorFlow[0]?.getD 0).toInt ++ str ", " ++ decInt (o.colorFlow[1]?.getD 0).toInt ++ str ")   "]

end Spec

namespace Props
open Sio Lcio Spec Util

theorem endsAt_get (h : Nat → MCParticle) (o : MCParticle) (v : List W64) : EndsAt h o v ↔ v = o.getEndpoint h := by
  unfold EndsAt MCParticle.getEndpoint
  cases hs : o.simStatus.getLsbD 31 with
  | true => simp
  | false =>
    simp only [Bool.not_false, if_true]
    cases hf : o.daughters.find? fun d => !(h d).simStatus.getLsbD 28 with
    | none =>
      rw [List.find?_eq_none] at hf
      simp only [Bool.false_eq_true, false_or, true_and]
      constructor
      · rintro (⟨-, hv⟩ | ⟨b, d, a, hd, -, hb, -⟩)
        · exact hv
        · exact absurd (by rw [hb]; rfl) (hf d (by rw [hd]; simp))
      · intro hv
        refine .inl ⟨fun d hd => ?_, hv⟩
        have := hf d hd
        simpa using this
    | some d =>
      obtain ⟨h1, b, a, h2, h3⟩ := List.find?_eq_some_iff_append.1 hf
      simp only [Bool.false_eq_true, false_or, true_and]
      have h1' : (h d).simStatus.getLsbD 28 = false := by simpa using h1
      constructor
      · rintro (⟨hall, -⟩ | ⟨b', d', a', hd, hb, hbit, hv⟩)
        · rw [hall d (by rw [h2]; simp)] at h1'; cases h1'
        · have : o.daughters.find? (fun d => !(h d).simStatus.getLsbD 28) = some d' :=
            List.find?_eq_some_iff_append.2 ⟨by rw [hbit]; rfl, b', a', hd, fun x hx => by rw [hb x hx]; rfl⟩
          rw [hf] at this
          rw [hv, Option.some.inj this]
      · intro hv
        exact .inr ⟨b, d, a, h2, fun x hx => by simpa using h3 x hx, h1', hv⟩

/-- Texts, each followed by a bar. -/
theorem bars (a : Str) (l : List Str) : ((a :: l).map (· ++ str "|")).flatten = a ++ (str "|" ++ (l.map (· ++ str "|")).flatten) := by
  simp

/-- **C97**, columns: the line of a particle starts with its values in the order of the title, each followed by a bar, with a number of at least eight digits first and with the endpoint that follows from the daughters. -/
theorem C97_columns (num : NumText) (h : Nat → MCParticle) (id : Int) (index : Nat) (o : MCParticle) (hc : o.colorFlow.length = 2) :
    ∃ idText endpoint, mcFront num h id index o = ((particleColumns num idText index o endpoint).map (· ++ str "|")).flatten ∧ EndsAt h o endpoint ∧ 8 ≤ idText.length ∧
      (0 ≤ id → ∃ k, idText = List.replicate k 48 ++ dec id.toNat) := by
  obtain ⟨c0, c1, hc⟩ : ∃ c0 c1, o.colorFlow = [c0, c1] := by
    match o.colorFlow, hc with
    | [a, b], _ => exact ⟨a, b, rfl⟩
  refine ⟨digits8 id, o.getEndpoint h, ?_, (endsAt_get h o _).2 rfl, ?_, fun h0 => ⟨8 - (dec id.natAbs).length, ?_⟩⟩
  · unfold mcFront particleColumns three
    rw [hc]
    simp only [bars, List.map_nil, List.flatten_nil, List.append_assoc, List.append_nil, List.getElem?_cons_zero, List.getElem?_cons_succ, Option.getD_some]
    rw [show str ")   |" = str ")   " ++ str "|" from by decide, show str " |" = str " " ++ str "|" from by decide]
    simp only [List.append_assoc]
  · unfold digits8
    simp only [List.length_append, List.length_replicate]
    omega
  · unfold digits8
    rw [if_neg (by omega), List.nil_append, show id.natAbs = id.toNat by omega]

/-- A particle and its daughter. -/
def decay : Nat → MCParticle
  | 7 => { pdg := 23, daughters := [9] }
  | 9 => { pdg := 11, parents := [7] }
  | 11 => { pdg := 13, parents := [3] }
  | _ => {}

/-- The endpoint printed is the vertex of the daughter, not the one of the particle, unless it was set. -/
example : EndsAt (fun _ => { vertex := [4, 5, 6] }) { endpoint := [1, 2, 3], daughters := [9] } [4, 5, 6] ∧
    EndsAt (fun _ => { vertex := [4, 5, 6] }) { endpoint := [1, 2, 3], daughters := [9], simStatus := 0x80000000 } [1, 2, 3] ∧ (decay 7).colorFlow.length = 2 := by
  refine ⟨(endsAt_get _ _ _).2 rfl, (endsAt_get _ _ _).2 rfl, rfl⟩

example : (0 : Nat) ∉ [7, 9] ∧ [7, 9].Nodup ∧ ∀ a ∈ [7, 9], ∀ b ∈ (decay a).parents ++ (decay a).daughters, b ∈ [7, 9] := ⟨by decide, by decide, by decide⟩

/-- **C97 fails** for a parent that is not in the collection: it is shown as the first particle. -/
theorem C97_fails_lost_parent (num : NumText) (flagText : Str) (ids : Nat → Int) (params : Params) :
    ∃ l0 l1, printMCParticles num flagText decay ids (str "MCParticle") params [7, 11] = .ok (some (mcHead flagText num params, [l0, l1])) ∧
      l1 = mcFront num decay (ids 11) 1 (decay 11) ++ mcFamily [0] [] ∧ (decay 11).parents = [3] := by
  refine ⟨mcFront num decay (ids 7) 0 (decay 7) ++ mcFamily [] [0], mcFront num decay (ids 11) 1 (decay 11) ++ mcFamily [0] [], ?_, rfl, rfl⟩
  unfold printMCParticles
  rw [if_neg (by simp)]
  rfl

/-- **C97 fails** for a particle that is in the collection twice: its daughter refers to the second place only. -/
theorem C97_fails_twice (num : NumText) (flagText : Str) (ids : Nat → Int) (params : Params) :
    ∃ l0 l1 l2, printMCParticles num flagText decay ids (str "MCParticle") params [7, 9, 7] = .ok (some (mcHead flagText num params, [l0, l1, l2])) ∧
      l1 = mcFront num decay (ids 9) 1 (decay 9) ++ mcFamily [2] [] := by
  refine ⟨mcFront num decay (ids 7) 0 (decay 7) ++ mcFamily [] [1], mcFront num decay (ids 9) 1 (decay 9) ++ mcFamily [2] [], mcFront num decay (ids 7) 2 (decay 7) ++ mcFamily [] [1], ?_, rfl⟩
  unfold printMCParticles
  rw [if_neg (by simp)]
  rfl

/-! ## Daughters -/

/-- Numbers one after the other, from a number on. -/
def NumberedFrom (i : Int) : List DaughterLine → Prop
  | [] => True
  | l :: ls => l.index = i ∧ NumberedFrom (i + 1) ls

theorem numbered_append (i : Int) (a b : List DaughterLine) : NumberedFrom i (a ++ b) ↔ NumberedFrom i a ∧ NumberedFrom (i + a.length) b := by
  induction a generalizing i with
  | nil => simp [NumberedFrom]
  | cons l a ih =>
    simp only [List.cons_append, NumberedFrom, ih, List.length_cons, and_assoc]
    rw [show i + 1 + (a.length : Int) = i + ((a.length + 1 : Nat) : Int) by omega]

theorem numbered_range (i : Int) (a : List DaughterLine) (h : NumberedFrom i a) : ∀ l ∈ a, i ≤ l.index ∧ l.index < i + a.length := by
  induction a generalizing i with
  | nil => intro l hl; cases hl
  | cons x a ih =>
    intro l hl
    rw [List.length_cons]
    rcases List.mem_cons.1 hl with rfl | hl
    · have := h.1; omega
    · have := ih _ h.2 l hl; omega

/-- The particles of the lines below a number. -/
def childrenOf (i : Int) (ls : List DaughterLine) : List Nat := (ls.filter fun l => l.mother == i).map (·.pdgOf)

theorem children_append (i : Int) (a b : List DaughterLine) : childrenOf i (a ++ b) = childrenOf i a ++ childrenOf i b := by simp [childrenOf]

theorem children_none (i : Int) (a : List DaughterLine) (h : ∀ l ∈ a, l.mother ≠ i) : childrenOf i a = [] := by
  unfold childrenOf
  rw [List.filter_eq_nil_iff.2 (by intro l hl; simpa using h l hl)]
  rfl

/-- What is true of the lines of a loop. -/
structure LinesOk (daughters : Nat → List Nat) (m : Int) (ds : List Nat) (i : Int) (ls : List DaughterLine) : Prop where
  numbered : NumberedFrom i ls
  mothers : ∀ l ∈ ls, l.mother = m ∨ (i ≤ l.mother ∧ l.mother < i + ls.length)
  first : childrenOf m ls = ds
  rest : ∀ l ∈ ls, childrenOf l.index ls = daughters l.pdgOf

theorem loop_ok (daughters : Nat → List Nat) (call : Nat → Int → Except Err (List DaughterLine × Int)) (part : Nat) (m : Int)
    (hcall : ∀ d i ls i', call d i = .ok (ls, i') → i' = i + ls.length ∧ LinesOk daughters (i - 1) (daughters d) i ls) :
    ∀ (ds : List Nat) (i : Int) (ls : List DaughterLine) (i' : Int), m < i → daughterLoop call part m ds i = .ok (ls, i') → i' = i + ls.length ∧ LinesOk daughters m ds i ls
  | [], i, ls, i', _, h => by
    simp only [daughterLoop, Except.ok.injEq, Prod.mk.injEq] at h
    obtain ⟨rfl, rfl⟩ := h
    exact ⟨by simp, trivial, fun l hl => (nomatch hl), rfl, fun l hl => (nomatch hl)⟩
  | d :: ds, i, ls, i', hm, h => by
    unfold daughterLoop at h
    cases h1 : call d (i + 1) with
    | error e => rw [h1] at h; cases h
    | ok x =>
      obtain ⟨a, j⟩ := x
      rw [h1] at h
      simp only at h
      obtain ⟨rfl, ha⟩ := hcall d _ a j h1
      rw [show i + 1 - 1 = i by omega] at ha
      cases h2 : daughterLoop call part m ds (i + 1 + a.length) with
      | error e => rw [h2] at h; cases h
      | ok y =>
        obtain ⟨b, k⟩ := y
        rw [h2] at h
        simp only [Except.ok.injEq, Prod.mk.injEq] at h
        obtain ⟨rfl, rfl⟩ := h
        obtain ⟨rfl, hb⟩ := loop_ok daughters call part m hcall ds _ b k (by omega) h2
        have hra := numbered_range _ _ ha.numbered
        have hrb := numbered_range _ _ hb.numbered
        have hlen : (((⟨i, m, d, part⟩ :: a ++ b : List DaughterLine).length : Nat) : Int) = 1 + a.length + b.length := by
          simp only [List.length_append, List.length_cons]; omega
        have hone : ∀ x : Int, childrenOf x [(⟨i, m, d, part⟩ : DaughterLine)] = if m = x then [d] else [] := by
          intro x
          unfold childrenOf
          by_cases hx : m = x <;> simp [hx]
        have hcat : ∀ x : Int, childrenOf x (⟨i, m, d, part⟩ :: a ++ b) = (if m = x then [d] else []) ++ (childrenOf x a ++ childrenOf x b) := by
          intro x
          rw [show (⟨i, m, d, part⟩ :: a ++ b : List DaughterLine) = [⟨i, m, d, part⟩] ++ (a ++ b) from rfl, children_append, children_append, hone]
        refine ⟨by rw [hlen]; omega, ⟨rfl, (numbered_append _ _ _).2 ⟨ha.numbered, hb.numbered⟩⟩, ?_, ?_, ?_⟩
        · intro l hl
          rw [hlen]
          simp only [List.cons_append, List.mem_cons, List.mem_append] at hl
          rcases hl with rfl | hl | hl
          · exact .inl rfl
          · rcases ha.mothers l hl with h | h
            · right; omega
            · right; omega
          · rcases hb.mothers l hl with h | h
            · exact .inl h
            · right; omega
        · rw [hcat, if_pos rfl, children_none m a, hb.first]
          · rfl
          · intro l hl
            rcases ha.mothers l hl with h | h <;> omega
        · intro l hl
          rw [hcat]
          simp only [List.cons_append, List.mem_cons, List.mem_append] at hl
          rcases hl with rfl | hl | hl
          · show (if m = i then [d] else []) ++ (childrenOf i a ++ childrenOf i b) = daughters d
            rw [if_neg (by omega), ha.first, children_none i b, List.append_nil, List.nil_append]
            intro l hl
            rcases hb.mothers l hl with h | h <;> omega
          · have := hra l hl
            rw [if_neg (by omega), ha.rest l hl, children_none l.index b, List.append_nil, List.nil_append]
            intro l' hl'
            rcases hb.mothers l' hl' with h | h <;> omega
          · have := hrb l hl
            rw [if_neg (by omega), hb.rest l hl, children_none l.index a, List.nil_append, List.nil_append]
            intro l' hl'
            rcases ha.mothers l' hl' with h | h <;> omega

theorem daughters_ok (daughters : Nat → List Nat) : ∀ (fuel part : Nat) (i : Int) (ls : List DaughterLine) (i' : Int), printDaughters daughters fuel part i = .ok (ls, i') →
    i' = i + ls.length ∧ LinesOk daughters (i - 1) (daughters part) i ls
  | 0, _, _, _, _, h => by simp [printDaughters] at h
  | fuel + 1, part, i, ls, i', h => by
    unfold printDaughters at h
    exact loop_ok daughters _ part (i - 1) (daughters_ok daughters fuel) _ _ _ _ (by omega) h

/-- **C97**, daughters: if particles are not their own descendants (they can be given ranks), the function ends. The lines are numbered one after the other; each line has, below its number, exactly the daughters of its particle, in their order, and so has the particle itself, with the number before the first.

Missing: status and endpoint, which are those of the mother, see `C97_fails_status`; decay chains with loops, for which it does not end. -/
theorem C97_daughters_partial (daughters : Nat → List Nat) (rank : Nat → Nat) (hr : ∀ p, ∀ d ∈ daughters p, rank d < rank p) (part : Nat) (i : Int) :
    ∃ ls, printDaughters daughters (rank part + 1) part i = .ok (ls, i + ls.length) ∧ (∀ (k : Nat) l, ls[k]? = some l → l.index = i + k) ∧
      (ls.filter fun l => l.mother == i - 1).map (·.pdgOf) = daughters part ∧
      ∀ l ∈ ls, (ls.filter fun l' => l'.mother == l.index).map (·.pdgOf) = daughters l.pdgOf := by
  have hends : ∀ fuel p j, rank p < fuel → ∃ x, printDaughters daughters fuel p j = .ok x := by
    intro fuel
    induction fuel with
    | zero => intro p j h; omega
    | succ fuel ih =>
      intro p j hp
      unfold printDaughters
      have : ∀ (ds : List Nat) (m k : Int), (∀ d ∈ ds, rank d < fuel) → ∃ x, daughterLoop (printDaughters daughters fuel) p m ds k = .ok x := by
        intro ds
        induction ds with
        | nil => intro m k _; exact ⟨_, rfl⟩
        | cons d ds ih2 =>
          intro m k hd
          obtain ⟨x, hx⟩ := ih d (k + 1) (hd d List.mem_cons_self)
          obtain ⟨y, hy⟩ := ih2 m x.2 fun d hm => hd d (List.mem_cons_of_mem _ hm)
          unfold daughterLoop
          rw [hx]
          simp only [hy]
          exact ⟨_, rfl⟩
      exact this _ _ _ fun d hd => by have := hr p d hd; omega
  obtain ⟨⟨ls, i'⟩, h⟩ := hends (rank part + 1) part i (by omega)
  obtain ⟨rfl, hok⟩ := daughters_ok daughters _ _ _ _ _ h
  refine ⟨ls, h, ?_, hok.first, hok.rest⟩
  have hnum := hok.numbered
  clear h hok
  induction ls generalizing i with
  | nil => intro k l hl; simp at hl
  | cons x ls ih =>
    intro k l hl
    cases k with
    | zero =>
      simp only [List.getElem?_cons_zero, Option.some.injEq] at hl
      subst hl
      have := hnum.1
      omega
    | succ k =>
      simp only [List.getElem?_cons_succ] at hl
      have := ih (i + 1) hnum.2 k l hl
      omega

example : ∀ p, ∀ d ∈ (decay p).daughters, (if d = 7 then 1 else 0) < (if p = 7 then 1 else 0) := by
  intro p d hd
  unfold decay at hd
  split at hd
  · simp only [List.mem_singleton] at hd
    subst hd
    decide
  all_goals cases hd

/-- The status printed in each line is that of the mother. -/
theorem status_of_mother (daughters : Nat → List Nat) : ∀ (fuel part : Nat) (i : Int) (ls : List DaughterLine) (i' : Int), printDaughters daughters fuel part i = .ok (ls, i') →
    ∀ l ∈ ls, l.pdgOf ∈ daughters l.statusOf
  | 0, _, _, _, _, h => by simp [printDaughters] at h
  | fuel + 1, part, i, ls, i', h => by
    unfold printDaughters at h
    have key : ∀ (ds : List Nat) (m k : Int) (ls : List DaughterLine) (k' : Int), (∀ d ∈ ds, d ∈ daughters part) → daughterLoop (printDaughters daughters fuel) part m ds k = .ok (ls, k') →
        ∀ l ∈ ls, l.pdgOf ∈ daughters l.statusOf := by
      intro ds
      induction ds with
      | nil =>
        intro m k ls k' _ h l hl
        simp only [daughterLoop, Except.ok.injEq, Prod.mk.injEq] at h
        rw [← h.1] at hl
        cases hl
      | cons d ds ih =>
        intro m k ls k' hd h l hl
        unfold daughterLoop at h
        cases h1 : printDaughters daughters fuel d (k + 1) with
        | error e => rw [h1] at h; cases h
        | ok x =>
          obtain ⟨a, j⟩ := x
          rw [h1] at h
          simp only at h
          cases h2 : daughterLoop (printDaughters daughters fuel) part m ds j with
          | error e => rw [h2] at h; cases h
          | ok y =>
            obtain ⟨b, j'⟩ := y
            rw [h2] at h
            simp only [Except.ok.injEq, Prod.mk.injEq] at h
            obtain ⟨rfl, rfl⟩ := h
            simp only [List.cons_append, List.mem_cons, List.mem_append] at hl
            rcases hl with rfl | hl | hl
            · exact hd d List.mem_cons_self
            · exact status_of_mother daughters fuel d _ a j h1 l hl
            · exact ih m j b j' (fun d hm => hd d (List.mem_cons_of_mem _ hm)) h2 l hl
    exact key _ _ _ _ _ (fun _ hd => hd) h

/-- **C97 fails** for the status of daughters: what is shown in the line of a daughter does not depend on its status, it is that of its mother (bit 28 decides where the mother ends). -/
theorem C97_fails_status (num : NumText) (gen sim : W32) (h28 : sim.getLsbD 28 = false) :
    let h : Nat → MCParticle := fun a => if a = 9 then { decay 9 with genStatus := gen, simStatus := sim } else decay a
    ∃ l, printDaughters (fun a => (h a).daughters) 2 7 1 = .ok ([l], 2) ∧ l.pdgOf = 9 ∧ l.text num h = l.text num decay := by
  refine ⟨⟨1, 0, 9, 7⟩, rfl, rfl, ?_⟩
  have he : (decay 7).getEndpoint (fun a => if a = 9 then { decay 9 with genStatus := gen, simStatus := sim } else decay a) = (decay 7).getEndpoint decay := by
    unfold MCParticle.getEndpoint
    have h1 : (decay 7).daughters = [9] := rfl
    have h2 : (decay 7).simStatus.getLsbD 31 = false := rfl
    have h3 : (decay 9).simStatus.getLsbD 28 = false := rfl
    simp only [h1, h2, List.find?_cons, h3, h28, if_true, Bool.not_false]
  unfold DaughterLine.text
  simp only [if_true, if_neg (show ¬ (7 : Nat) = 9 by decide), he]

/-- **C97 fails** for particles that are their own descendants: the function does not end. -/
theorem C97_fails_loop (daughters : Nat → List Nat) (p : Nat) (h : daughters p = [p]) (fuel : Nat) (i : Int) : printDaughters daughters fuel p i = .error .diverge := by
  induction fuel generalizing i with
  | zero => rfl
  | succ fuel ih =>
    unfold printDaughters
    rw [h]
    unfold daughterLoop
    rw [ih]

end Props
