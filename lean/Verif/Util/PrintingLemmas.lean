import Verif.Util.Printing
/-
Which parts of the format of a stream a text depends on.
-/
namespace Util
open Sio Lcio

/-- The parts of the format that are known to be the same for two streams. -/
structure Known where
  hex : Bool
  left : Bool
  fill : Bool
  plus : Bool
  form : Bool
  prec : Bool
  width : Option Nat
  deriving DecidableEq, Repr

/-- Two formats have the known parts in common. -/
def Known.Same (k : Known) (f g : Format) : Prop :=
  (k.hex = true → f.hex = g.hex) ∧ (k.left = true → f.left = g.left) ∧ (k.fill = true → f.fill = g.fill) ∧ (k.plus = true → f.plus = g.plus) ∧
  (k.form = true → f.form = g.form) ∧ (k.prec = true → f.prec = g.prec) ∧ (∀ n, k.width = some n → f.width = n ∧ g.width = n)

/-- Filling up is determined. -/
def Known.pads (k : Known) : Bool :=
  match k.width with
  | none => false
  | some 0 => true
  | some _ => k.left && k.fill

/-- What is known behind a piece, if its text is determined. -/
def Known.step (k : Known) : Piece → Option Known
  | .text _ => if k.pads then some { k with width := some 0 } else none
  | .int _ | .long _ => if k.pads && k.hex && k.plus then some { k with width := some 0 } else none
  | .size _ => if k.pads && k.hex then some { k with width := some 0 } else none
  | .float _ | .double _ => if k.pads && k.form && k.prec && k.plus then some { k with width := some 0 } else none
  | .endl => some k
  | .setw n => some { k with width := some n }
  | .setfill _ => some { k with fill := true }
  | .dec | .hex => some { k with hex := true }
  | .left | .right => some { k with left := true }
  | .showpos | .noshowpos => some { k with plus := true }
  | .scientific | .fixed => some { k with form := true }
  | .setprecision _ => some { k with prec := true }

def Known.steps : Known → List Piece → Option Known
  | k, [] => some k
  | k, p :: ps => match k.step p with
    | none => none
    | some k' => k'.steps ps

theorem Known.steps_append (k : Known) (ps qs : List Piece) : k.steps (ps ++ qs) = (match k.steps ps with | none => none | some k' => k'.steps qs) := by
  induction ps generalizing k with
  | nil => rfl
  | cons p ps ih =>
    simp only [List.cons_append, Known.steps]
    cases k.step p with
    | none => rfl
    | some k' => exact ih k'

theorem pad_same {k : Known} {f g : Format} (h : k.Same f g) (hp : k.pads = true) (s : Str) : f.pad s = g.pad s := by
  obtain ⟨-, hl, hf, -, -, -, hw⟩ := h
  unfold Known.pads at hp
  cases hk : k.width with
  | none => rw [hk] at hp; simp at hp
  | some n =>
    obtain ⟨h1, h2⟩ := hw n hk
    cases n with
    | zero => simp [Format.pad, h1, h2]
    | succ n =>
      rw [hk] at hp
      simp only [Bool.and_eq_true] at hp
      simp [Format.pad, h1, h2, hl hp.1, hf hp.2]

theorem int_same {num : FloatText} {k : Known} {f g : Format} (h : k.Same f g) (hk : (k.pads && k.hex && k.plus) = true) (n : W32) : f.print num (.int n) = g.print num (.int n) := by
  simp only [Bool.and_eq_true] at hk
  have e : signedText f n.toNat n.toInt = signedText g n.toNat n.toInt := by
    unfold signedText
    rw [h.1 hk.1.2, h.2.2.2.1 hk.2]
  show f.pad (signedText f n.toNat n.toInt) = g.pad (signedText g n.toNat n.toInt)
  rw [e]
  exact pad_same h hk.1.1 _

theorem long_same {num : FloatText} {k : Known} {f g : Format} (h : k.Same f g) (hk : (k.pads && k.hex && k.plus) = true) (n : W64) : f.print num (.long n) = g.print num (.long n) := by
  simp only [Bool.and_eq_true] at hk
  have e : signedText f n.toNat n.toInt = signedText g n.toNat n.toInt := by
    unfold signedText
    rw [h.1 hk.1.2, h.2.2.2.1 hk.2]
  show f.pad (signedText f n.toNat n.toInt) = g.pad (signedText g n.toNat n.toInt)
  rw [e]
  exact pad_same h hk.1.1 _

theorem size_same {num : FloatText} {k : Known} {f g : Format} (h : k.Same f g) (hk : (k.pads && k.hex) = true) (n : W64) : f.print num (.size n) = g.print num (.size n) := by
  simp only [Bool.and_eq_true] at hk
  show f.pad (if f.hex then _ else _) = g.pad (if g.hex then _ else _)
  rw [h.1 hk.2]
  exact pad_same h hk.1 _

theorem float_same {num : FloatText} {k : Known} {f g : Format} (h : k.Same f g) (hk : (k.pads && k.form && k.prec && k.plus) = true) (x : W32) :
    f.print num (.float x) = g.print num (.float x) := by
  simp only [Bool.and_eq_true] at hk
  show f.pad (num.float f.form f.prec f.plus x) = g.pad (num.float g.form g.prec g.plus x)
  rw [h.2.2.2.2.1 hk.1.1.2, h.2.2.2.2.2.1 hk.1.2, h.2.2.2.1 hk.2]
  exact pad_same h hk.1.1.1 _

theorem double_same {num : FloatText} {k : Known} {f g : Format} (h : k.Same f g) (hk : (k.pads && k.form && k.prec && k.plus) = true) (x : W64) :
    f.print num (.double x) = g.print num (.double x) := by
  simp only [Bool.and_eq_true] at hk
  show f.pad (num.double f.form f.prec f.plus x) = g.pad (num.double g.form g.prec g.plus x)
  rw [h.2.2.2.2.1 hk.1.1.2, h.2.2.2.2.2.1 hk.1.2, h.2.2.2.1 hk.2]
  exact pad_same h hk.1.1.1 _

theorem Known.step_sound {num : FloatText} {k k' : Known} {f g : Format} {p : Piece} (h : k.Same f g) (hs : k.step p = some k') :
    f.print num p = g.print num p ∧ k'.Same (f.next p) (g.next p) := by
  have h' := h
  obtain ⟨hh, hl, hf, hp, hm, hq, hw⟩ := h
  have zero : Known.Same { k with width := some 0 } { f with width := 0 } { g with width := 0 } :=
    ⟨hh, hl, hf, hp, hm, hq, fun n hn => by simp only [Option.some.injEq] at hn; subst hn; exact ⟨rfl, rfl⟩⟩
  cases p with
  | text s =>
    simp only [Known.step] at hs; split at hs <;> cases hs
    rename_i hk
    exact ⟨pad_same h' hk s, zero⟩
  | int n =>
    simp only [Known.step] at hs
    split at hs
    · rename_i hk
      simp only [Option.some.injEq] at hs
      subst hs
      exact ⟨int_same h' hk n, zero⟩
    · cases hs
  | long n =>
    simp only [Known.step] at hs
    split at hs
    · rename_i hk
      simp only [Option.some.injEq] at hs
      subst hs
      exact ⟨long_same h' hk n, zero⟩
    · cases hs
  | size n =>
    simp only [Known.step] at hs
    split at hs
    · rename_i hk
      simp only [Option.some.injEq] at hs
      subst hs
      exact ⟨size_same h' hk n, zero⟩
    · cases hs
  | float x =>
    simp only [Known.step] at hs
    split at hs
    · rename_i hk
      simp only [Option.some.injEq] at hs
      subst hs
      exact ⟨float_same h' hk x, zero⟩
    · cases hs
  | double x =>
    simp only [Known.step] at hs
    split at hs
    · rename_i hk
      simp only [Option.some.injEq] at hs
      subst hs
      exact ⟨double_same h' hk x, zero⟩
    · cases hs
  | endl => cases hs; exact ⟨rfl, h'⟩
  | setw n => cases hs; exact ⟨rfl, hh, hl, hf, hp, hm, hq, fun m hm => by simp only [Option.some.injEq] at hm; subst hm; exact ⟨rfl, rfl⟩⟩
  | setfill c => cases hs; exact ⟨rfl, hh, hl, fun _ => rfl, hp, hm, hq, hw⟩
  | dec => cases hs; exact ⟨rfl, fun _ => rfl, hl, hf, hp, hm, hq, hw⟩
  | hex => cases hs; exact ⟨rfl, fun _ => rfl, hl, hf, hp, hm, hq, hw⟩
  | left => cases hs; exact ⟨rfl, hh, fun _ => rfl, hf, hp, hm, hq, hw⟩
  | right => cases hs; exact ⟨rfl, hh, fun _ => rfl, hf, hp, hm, hq, hw⟩
  | showpos => cases hs; exact ⟨rfl, hh, hl, hf, fun _ => rfl, hm, hq, hw⟩
  | noshowpos => cases hs; exact ⟨rfl, hh, hl, hf, fun _ => rfl, hm, hq, hw⟩
  | scientific => cases hs; exact ⟨rfl, hh, hl, hf, hp, fun _ => rfl, hq, hw⟩
  | fixed => cases hs; exact ⟨rfl, hh, hl, hf, hp, fun _ => rfl, hq, hw⟩
  | setprecision n => cases hs; exact ⟨rfl, hh, hl, hf, hp, hm, fun _ => rfl, hw⟩

theorem Known.steps_sound {num : FloatText} {ps : List Piece} : ∀ {k : Known} {f g : Format}, k.Same f g → k.steps ps ≠ none → f.printAll num ps = g.printAll num ps := by
  induction ps with
  | nil => intros; rfl
  | cons p ps ih =>
    intro k f g h hs
    simp only [Known.steps] at hs
    cases hk : k.step p with
    | none => rw [hk] at hs; exact absurd rfl hs
    | some k' =>
      rw [hk] at hs
      obtain ⟨h1, h2⟩ := Known.step_sound (num := num) h hk
      simp only [Format.printAll, h1, ih h2 hs]

/-- Everything is known. -/
def Known.Full (k : Known) : Prop := k.hex = true ∧ k.left = true ∧ k.fill = true ∧ k.plus = true ∧ k.form = true ∧ k.prec = true ∧ k.width ≠ none

theorem Known.step_full {k : Known} (h : k.Full) (p : Piece) : ∃ k', k.step p = some k' ∧ k'.Full := by
  obtain ⟨h1, h2, h3, h4, h5, h6, h7⟩ := h
  have hp : k.pads = true := by
    unfold Known.pads
    cases hk : k.width with
    | none => exact absurd hk h7
    | some n => cases n <;> simp [h2, h3]
  cases p <;> simp [Known.step, Known.Full, hp, h1, h2, h3, h4, h5, h6, h7]

theorem Known.steps_full {ps : List Piece} : ∀ {k : Known}, k.Full → ∃ k', k.steps ps = some k' ∧ k'.Full := by
  induction ps with
  | nil => intro k h; exact ⟨k, rfl, h⟩
  | cons p ps ih =>
    intro k h
    obtain ⟨k', h1, h2⟩ := Known.step_full h p
    simp only [Known.steps, h1]
    exact ih h2

theorem Known.reaches {k k' : Known} {ps qs : List Piece} (h : k.steps ps = some k') (hk : k'.Full) : k.steps (ps ++ qs) ≠ none := by
  rw [Known.steps_append, h]
  obtain ⟨k2, h2, -⟩ := Known.steps_full (ps := qs) hk
  simp [h2]

/-- The format of a stream to which only tidy objects were printed: like a fresh one up to the fill character. -/
structure Format.Plain (f : Format) : Prop where
  hex : f.hex = false
  left : f.left = false
  plus : f.plus = false
  form : f.form = .general
  prec : f.prec = 6
  width : f.width = 0

theorem Format.Plain.of_fresh : Format.fresh.Plain := ⟨rfl, rfl, rfl, rfl, rfl, rfl⟩

def Known.plain : Known := ⟨true, true, false, true, true, true, some 0⟩
def Known.nothing : Known := ⟨false, false, false, false, false, false, none⟩

theorem Known.plain_same {f g : Format} (hf : f.Plain) (hg : g.Plain) : Known.plain.Same f g := by
  refine ⟨fun _ => hf.hex.trans hg.hex.symm, fun _ => hf.left.trans hg.left.symm, fun h => by simp [Known.plain] at h, fun _ => hf.plus.trans hg.plus.symm,
    fun _ => hf.form.trans hg.form.symm, fun _ => hf.prec.trans hg.prec.symm, fun n hn => ?_⟩
  simp only [Known.plain, Option.some.injEq] at hn
  subst hn
  exact ⟨hf.width, hg.width⟩

theorem Known.nothing_same (f g : Format) : Known.nothing.Same f g := by
  refine ⟨?_, ?_, ?_, ?_, ?_, ?_, ?_⟩ <;> intros <;> simp_all [Known.nothing]

/-! ## All objects print the same to all plain streams -/

theorem after_append (f : Format) (ps qs : List Piece) : f.after (ps ++ qs) = (f.after ps).after qs := List.foldl_append ..

theorem steps_cons {k k' : Known} {p : Piece} (ps : List Piece) (h : k.step p = some k') : k.steps (p :: ps) = k'.steps ps := by simp [Known.steps, h]

theorem reaches_of {k : Known} (ps qs : List Piece) (h : ∃ k', k.steps ps = some k' ∧ k'.Full) : k.steps (ps ++ qs) ≠ none := by
  obtain ⟨k', h1, h2⟩ := h
  exact Known.reaches h1 h2

theorem full_mk (a b c d e f : Bool) (n : Nat) (h : a = true ∧ b = true ∧ c = true ∧ d = true ∧ e = true ∧ f = true) : Known.Full ⟨a, b, c, d, e, f, some n⟩ := by
  obtain ⟨rfl, rfl, rfl, rfl, rfl, rfl⟩ := h
  exact ⟨rfl, rfl, rfl, rfl, rfl, rfl, by simp⟩

theorem fullKnown : Known.Full ⟨true, true, true, true, true, true, some 0⟩ := full_mk _ _ _ _ _ _ _ ⟨rfl, rfl, rfl, rfl, rfl, rfl⟩

theorem titled_plain (title name : String) (col : Option Str) (body : List Piece) : Known.plain.steps (titled title name col body) ≠ none :=
  reaches_of _ _ ⟨⟨true, true, true, true, true, true, some 0⟩, rfl, fullKnown⟩

theorem titledAny_plain (title : String) (body : List Piece) : Known.plain.steps (titledAny title body) ≠ none :=
  reaches_of _ _ ⟨⟨true, true, true, true, true, true, some 0⟩, rfl, fullKnown⟩

/-- Every list that sets the fill character before it sets a width. -/
theorem fill_first (ps qs : List Piece) (h : Known.plain.steps ps = some ⟨true, true, true, true, true, true, some 0⟩) : Known.plain.steps (ps ++ qs) ≠ none :=
  reaches_of _ _ ⟨_, h, fullKnown⟩

theorem front_plain (i : W32) (qs : List Piece) : Known.plain.steps ([.noshowpos, lit " ["] ++ ([.dec, .setw 8, .setfill 48, .int i] ++ qs)) ≠ none :=
  fill_first [.noshowpos, lit " [", .dec, .setw 8, .setfill 48, .int i] qs rfl

theorem pieces_plain (p : Print) : Known.plain.steps p.pieces ≠ none := by
  cases p with
  | colLine n t f a b c => simp [Print.pieces, colLine]; exact fill_first [.noshowpos, lit "|", .dec, .setw 20, .setfill 32, .int n] _ rfl
  | colText col n t f a b c => exact titled_plain _ _ _ _
  | eventLine r e d t w => exact fill_first [.noshowpos, lit "|", .dec, .setw 13, .setfill 32, .int r] _ rfl
  | eventText col r e d t w cols => exact titled_plain _ _ _ _
  | flagLine f => exact fill_first [.noshowpos, lit "|", .hex, .setw 8, .setfill 32, .int f] _ rfl
  | flagText f => exact titledAny_plain _ _
  | genericLine i a b c =>
    simp only [Print.pieces, genericLine, List.append_assoc]
    exact fill_first [.noshowpos, lit " [", .dec, .setw 8, .setfill 48, .int i, lit "] ", .setfill 32, .dec] _ rfl
  | genericText col i a b c t d => exact titled_plain _ _ _ _
  | intVecLine i vs =>
    simp only [Print.pieces, intVecLine, List.append_assoc]
    exact fill_first [.noshowpos, lit "| [", .setfill 48, .setw 8, .dec, .int i, lit "] |"] _ rfl
  | intVecText col i => exact titled_plain _ _ _ _
  | floatVecLine i vs =>
    simp only [Print.pieces, floatVecLine, List.append_assoc]
    exact fill_first [.noshowpos, lit " [", .setfill 48, .setw 8, .dec, .int i, lit "] |"] _ rfl
  | floatVecText col i => exact titled_plain _ _ _ _
  | objectLine i => exact fill_first [.noshowpos, lit " [", .dec, .setw 8, .setfill 48, .int i, lit "] "] [] rfl
  | objectText i => exact titledAny_plain _ _
  | paramsLine => exact fill_first [.noshowpos, lit "| ", .hex, .setw 8, .setfill 32, lit " |"] [] rfl
  | paramsText => exact titledAny_plain _ _
  | relationLine a b w => exact fill_first [.noshowpos, .setfill 48] _ rfl
  | relationText col a b w => exact titled_plain _ _ _ _
  | runLine r d t =>
    simp only [Print.pieces, runLine, List.append_assoc]
    exact fill_first [.noshowpos, lit " [", .dec, .setw 8, .setfill 48, .int r] _ rfl
  | runText col r d t => exact titled_plain _ _ _ _
  | pidLine a b c d => exact fill_first [.noshowpos, lit "|", .dec, .setw 10, .setfill 32, .int a] _ rfl
  | pidText col a b c d => exact titled_plain _ _ _ _
  | calHitLine i a b e f p t =>
    simp only [Print.pieces, calHitLine, List.append_assoc]
    exact fill_first [.noshowpos, lit " [", .dec, .setw 8, .setfill 48, .int i] _ rfl
  | particleLine p =>
    simp only [Print.pieces, particleLine, List.append_assoc]
    exact fill_first [lit " [", .dec, .setfill 48, .setw 8, .int p.id] _ rfl
  | stateLine s =>
    simp only [Print.pieces, stateLine, List.append_assoc]
    exact fill_first [.noshowpos, lit " [", .setfill 48, .setw 8, .dec, .int s.id] _ rfl
  | stateText s => exact titledAny_plain _ _
  | vertexLine i p a c q x n o => exact fill_first [.noshowpos, .setfill 48] _ rfl
  | rawCalLine i a b c t f =>
    simp only [Print.pieces, rawCalLine, List.append_assoc]
    exact fill_first [.noshowpos, lit " [", .setw 8, .setfill 48, .dec, .int i] _ rfl
  | rawCalText col a b c t => exact titled_plain _ _ _ _
  | dataLine i a b t f v => simp only [Print.pieces, dataLine, dataFront, zeroed, List.append_assoc]; exact front_plain i _
  | dataText col a b t => exact titled_plain _ _ _ _
  | pulseLine i a b t c q d f v => simp only [Print.pieces, pulseLine, dataFront, zeroed, List.append_assoc]; exact front_plain i _
  | pulseText col a b t c q => exact titled_plain _ _ _ _
  | rawDataLine i a b t f v => simp only [Print.pieces, rawDataLine, dataFront, zeroed, List.append_assoc]; exact front_plain i _
  | rawDataText col a b t => exact titled_plain _ _ _ _

end Util
