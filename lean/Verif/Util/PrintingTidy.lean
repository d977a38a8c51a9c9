import Verif.Util.PrintingLemmas
/-
The operators that leave the format of the stream as it was.
-/
namespace Util
open Sio Lcio

/-- The operators whose text is the same for all streams: they set all parts of the format they use. -/
def Print.steady : Print → Bool
  | .colText .. | .flagText .. | .intVecText .. | .floatVecText .. | .objectText .. | .paramsText | .runText .. | .stateText .. | .rawDataText .. | .rawCalText none .. => true
  | _ => false

/-- The operators that leave a fresh stream as fresh as it was, up to the fill character. -/
def Print.tidy : Print → Bool
  | .eventText .. | .flagLine .. | .paramsLine | .calHitLine .. | .particleLine .. | .stateLine .. | .stateText .. | .vertexLine .. => false
  | _ => true

theorem flatMap_plain {α : Type} (q : α → List Piece) (hq : ∀ x (f : Format), f.Plain → (f.after (q x)).Plain) (xs : List α) :
    ∀ f : Format, f.Plain → (f.after (xs.flatMap q)).Plain := by
  induction xs with
  | nil => intro f h; exact h
  | cons x xs ih => intro f h; rw [List.flatMap_cons, after_append]; exact ih _ (hq x f h)

theorem vecPieces_plain {α : Type} (piece : α → Piece) (hp : ∀ x (f : Format), f.next (piece x) = { f with width := 0 }) (vs : List α) :
    ∀ (j : Nat) (f : Format), f.Plain → (f.after (vecPieces piece j vs)).Plain := by
  induction vs with
  | nil => intro j f h; exact h
  | cons v vs ih =>
    intro j f h
    simp only [vecPieces]
    rw [after_append, after_append, after_append]
    apply ih
    have h1 : (f.after [.setfill 32, .right, .setw 8, piece v]).Plain := by
      show ((f.after [.setfill 32, .right, .setw 8]).next (piece v)).Plain
      rw [hp]
      exact ⟨h.hex, rfl, h.plus, h.form, h.prec, rfl⟩
    generalize f.after [.setfill 32, .right, .setw 8, piece v] = g at h1
    have h2 : (g.after (if vs = [] then [] else [lit ", "])).Plain := by
      split
      · exact h1
      · exact ⟨h1.hex, h1.left, h1.plus, h1.form, h1.prec, rfl⟩
    generalize g.after (if vs = [] then [] else [lit ", "]) = g2 at h2
    split
    · exact ⟨h2.hex, h2.left, h2.plus, h2.form, h2.prec, rfl⟩
    · exact h2

theorem title_after {f : Format} (h : f.Plain) (title : String) :
    (f.after [.noshowpos, .setw 41, .setfill 45, .right, lit title, .setfill 45, .setw 29, lit "-", .endl]).Plain :=
  ⟨h.hex, rfl, rfl, h.form, h.prec, rfl⟩

theorem titledAny_tidy {f : Format} (h : f.Plain) (title : String) {body : List Piece} (hb : ∀ g : Format, g.Plain → (g.after body).Plain) : (f.after (titledAny title body)).Plain := by
  unfold titledAny
  rw [after_append]
  exact hb _ (title_after h title)

theorem titled_tidy {f : Format} (h : f.Plain) (title name : String) (col : Option Str) {body : List Piece} (hb : ∀ g : Format, g.Plain → (g.after body).Plain) :
    (f.after (titled title name col body)).Plain := by
  unfold titled
  rw [after_append]
  have h1 := title_after h title
  cases col with
  | none => exact hb _ h1
  | some t =>
    dsimp only
    split
    · exact ⟨h1.hex, h1.left, h1.plus, h1.form, h1.prec, rfl⟩
    · exact hb _ h1

theorem paramsText_tidy {f : Format} (hh : f.hex = false) (hf : f.form = .general) (hp : f.prec = 6) : (f.after paramsText).Plain := ⟨hh, rfl, rfl, hf, hp, rfl⟩

/-- Computes the format behind a list of pieces. -/
macro "plainly" h:ident : tactic => `(tactic| (refine ⟨?_, ?_, ?_, ?_, ?_, ?_⟩ <;>
  simp [Print.pieces, Format.after, Format.next, row, row', lit, boolPiece, idOr0, colLine, eventLine, objectLine, relationLine, pidLine, paramsText, titledAny,
    ($h).hex, ($h).left, ($h).plus, ($h).form, ($h).prec, ($h).width]))

theorem runLine_tidy {f : Format} (h : f.Plain) (r : W32) (d t : Str) : (f.after (runLine r d t)).Plain := by
  have e : (f.after [.noshowpos, lit " [", .dec, .setw 8, .setfill 48, .int r, lit "] ", lit "|", .dec, .setw 8, .setfill 32, .text d, lit "|", .dec, .setw 8, .setfill 32, .text t,
      lit "|", .dec, .setw 8, .setfill 32]) = { f with hex := false, plus := false, fill := 32, width := 8 } := by
    simp [Format.after, Format.next, lit]
  unfold runLine
  rw [after_append, after_append, e]
  have h1 : (({ f with hex := false, plus := false, fill := 32, width := 8 } : Format).after paramsText).Plain := paramsText_tidy rfl h.form h.prec
  generalize ({ f with hex := false, plus := false, fill := 32, width := 8 } : Format).after paramsText = g at h1
  plainly h1

theorem fieldPieces_tidy {f : Format} (h : f.Plain) (x : Option Str) : (f.after (fieldPieces x)).Plain := by
  cases x with
  | none => simp only [fieldPieces]; plainly h
  | some t => simp only [fieldPieces]; plainly h

theorem fieldsOr_tidy {f : Format} (h : f.Plain) (before after : String) (x : Option Str) : (f.after (fieldsOr before after x)).Plain := by
  cases x with
  | none => simp only [fieldsOr]; plainly h
  | some t =>
    simp only [fieldsOr]
    split
    · plainly h
    · plainly h

theorem dataFront_tidy {f : Format} (h : f.Plain) (i a b : W32) : (f.after (dataFront i a b)).Plain := by
  simp only [dataFront, zeroed]
  plainly h

set_option maxHeartbeats 1000000 in
theorem tidy_plain {p : Print} (ht : p.tidy = true) {f : Format} (h : f.Plain) : (f.after p.pieces).Plain := by
  cases p with
  | colLine n t g a b c => plainly h
  | colText col n t g a b c => exact titled_tidy h _ _ _ fun g hg => by plainly hg
  | eventLine r e d t w => plainly h
  | eventText col r e d t w cols => cases ht
  | flagLine f => cases ht
  | flagText x => exact titledAny_tidy h _ fun g hg => by plainly hg
  | genericLine i a b c =>
    simp only [Print.pieces, genericLine]
    rw [after_append, after_append, after_append]
    have a1 := flatMap_plain (fun i : W32 => [lit "i:", .int i, lit "; "]) (fun x f h => by plainly h) a
    have a2 := flatMap_plain (fun x : W32 => [lit "f:", .float x, lit "; "]) (fun x f h => by plainly h) b
    have a3 := flatMap_plain (fun x : W64 => [lit "d:", .double x, lit "; "]) (fun x f h => by plainly h) c
    exact a3 _ (a2 _ (a1 _ (by plainly h)))
  | genericText col i a b c t d => exact titled_tidy h _ _ _ fun g hg => by plainly hg
  | intVecLine i vs =>
    simp only [Print.pieces, intVecLine]
    rw [after_append, after_append]
    have h1 := vecPieces_plain Piece.int (fun x f => rfl) vs 0 (f.after [.noshowpos, lit "| [", .setfill 48, .setw 8, .dec, .int i, lit "] |"]) (by plainly h)
    exact h1
  | intVecText col i => exact titled_tidy h _ _ _ fun g hg => by plainly hg
  | floatVecLine i vs =>
    simp only [Print.pieces, floatVecLine]
    rw [after_append, after_append]
    have h1 := vecPieces_plain Piece.float (fun x f => rfl) vs 0 (f.after [.noshowpos, lit " [", .setfill 48, .setw 8, .dec, .int i, lit "] |"]) (by plainly h)
    exact h1
  | floatVecText col i => exact titled_tidy h _ _ _ fun g hg => by plainly hg
  | objectLine i => plainly h
  | objectText i => exact titledAny_tidy h _ fun g hg => by plainly hg
  | paramsLine => cases ht
  | paramsText => exact paramsText_tidy h.hex h.form h.prec
  | relationLine a b w => plainly h
  | relationText col a b w => exact titled_tidy h _ _ _ fun g hg => by plainly hg
  | runLine r d t => exact runLine_tidy h r d t
  | runText col r d t => exact titled_tidy h _ _ _ fun g hg => by plainly hg
  | pidLine a b c d => plainly h
  | pidText col a b c d => exact titled_tidy h _ _ _ fun g hg => by plainly hg
  | calHitLine i a b e f p t => cases ht
  | particleLine p => cases ht
  | stateLine s => cases ht
  | stateText s => cases ht
  | vertexLine i p a c q x n o => cases ht
  | rawCalLine i a b c t x =>
    simp only [Print.pieces, rawCalLine, zeroed]
    rw [after_append]
    have h1 : (f.after ([.noshowpos, lit " [", .setw 8, .setfill 48, .dec, .int i, lit "| "] ++ [.dec, .setw 8, .setfill 48, .int a] ++ [lit "| "] ++ [.dec, .setw 8, .setfill 48, .int b] ++
      [lit "|", .dec, .setw 11, .setfill 32, .int c, lit "|", .dec, .setw 11, .setfill 32, .int t, lit "|", .endl])).Plain := by plainly h
    exact fieldPieces_tidy h1 x
  | rawCalText col a b c t =>
    refine titled_tidy h _ _ _ fun g hg => ?_
    cases col with
    | none => plainly hg
    | some x =>
      simp only [bitPieces, List.append_assoc]
      plainly hg
  | dataLine i a b t x v =>
    simp only [Print.pieces, dataLine]
    rw [after_append, after_append, after_append, after_append, after_append]
    have h1 := dataFront_tidy h i a b
    generalize f.after (dataFront i a b) = f1 at h1
    have h2 : (f1.after [lit " ", .dec, .setw 8, .setfill 32, .float t, lit " |"]).Plain := by plainly h1
    have h3 := fieldsOr_tidy h2 " " "" x
    generalize (f1.after [lit " ", .dec, .setw 8, .setfill 32, .float t, lit " |"]).after _ = f3 at h3 ⊢
    have h4 : (f3.after [lit "chargeADC : "]).Plain := by plainly h3
    have h5 := flatMap_plain (fun x : W32 => [Piece.float x, lit ","]) (fun x f h => by plainly h) v _ h4
    exact h5
  | dataText col a b t => exact titled_tidy h _ _ _ fun g hg => by plainly hg
  | pulseLine i a b t c q d x v =>
    simp only [Print.pieces, pulseLine]
    rw [after_append, after_append, after_append, after_append, after_append]
    have h1 := dataFront_tidy h i a b
    generalize f.after (dataFront i a b) = f1 at h1
    have h2 : (f1.after [.dec, .setw 6, .setfill 32, .float t, lit "|", .dec, .setw 8, .setfill 32, .float c, lit "|", .dec, .setw 10, .setfill 32, .int q, .endl]).Plain := by plainly h1
    generalize f1.after [.dec, .setw 6, .setfill 32, .float t, lit "|", .dec, .setw 8, .setfill 32, .float c, lit "|", .dec, .setw 10, .setfill 32, .int q, .endl] = f2 at h2
    have h3 : ∀ d : Option W32, (f2.after (corrPieces d)).Plain := by
      intro d
      cases d with
      | none => simp only [corrPieces]; plainly h2
      | some c => simp only [corrPieces]; plainly h2
    have h4 := fieldsOr_tidy (h3 d) "|" "|" x
    have h5 := flatMap_plain (fun x : W32 => [Piece.float x, lit ", "]) (fun x f h => by plainly h) v _ h4
    exact h5
  | pulseText col a b t c q =>
    refine titled_tidy h _ _ _ fun g hg => ?_
    cases col with
    | none => plainly hg
    | some x =>
      simp only [bitPieces, List.append_assoc]
      plainly hg
  | rawDataLine i a b t x v =>
    simp only [Print.pieces, rawDataLine]
    rw [after_append, after_append, after_append, after_append, after_append]
    have h1 := dataFront_tidy h i a b
    generalize f.after (dataFront i a b) = f1 at h1
    have h2 : (f1.after [lit " ", .dec, .setw 8, .setfill 32, .int t, lit " |"]).Plain := by plainly h1
    have h3 := fieldsOr_tidy h2 " " "" x
    generalize (f1.after [lit " ", .dec, .setw 8, .setfill 32, .int t, lit " |"]).after _ = f3 at h3 ⊢
    have h4 : (f3.after [lit " adc values: "]).Plain := by plainly h3
    have h5 := flatMap_plain (fun x : W32 => [Piece.int x, lit ","]) (fun x f h => by plainly h) v _ h4
    exact h5
  | rawDataText col a b t => exact titled_tidy h _ _ _ fun g hg => by plainly hg

/-! ## Steady operators -/

/-- What is known behind the first line of a detailed text. -/
def Known.title : Known := ⟨false, true, true, true, false, false, some 0⟩

theorem titled_steady (title name : String) (col : Option Str) {body : List Piece} (hb : Known.title.steps body ≠ none) : Known.nothing.steps (titled title name col body) ≠ none := by
  unfold titled
  rw [Known.steps_append]
  have e : Known.nothing.steps [.noshowpos, .setw 41, .setfill 45, .right, lit title, .setfill 45, .setw 29, lit "-", .endl] = some Known.title := rfl
  rw [e]
  cases col with
  | none => exact hb
  | some t =>
    dsimp only
    split
    · have e2 : Known.title.steps [lit "Warning: collection not of type ", lit name, .endl] = some Known.title := rfl
      rw [e2]; simp
    · exact hb

theorem titledAny_steady (title : String) {body : List Piece} (hb : Known.title.steps body ≠ none) : Known.nothing.steps (titledAny title body) ≠ none := by
  unfold titledAny
  rw [Known.steps_append]
  have e : Known.nothing.steps [.noshowpos, .setw 41, .setfill 45, .right, lit title, .setfill 45, .setw 29, lit "-", .endl] = some Known.title := rfl
  rw [e]
  exact hb

/-- What is known while the covariance matrix is printed. -/
def cov (n : Nat) : Known := ⟨false, true, true, true, true, true, some n⟩

theorem cov_pads (n : Nat) : (cov n).pads = true := by cases n <;> rfl

theorem covPieces_known {close : List Piece} (hc : ∀ n, ∃ m, (cov n).steps close = some (cov m)) (cs : List W32) :
    ∀ nele ncol n, ∃ m, (cov n).steps (covPieces close nele ncol cs) = some (cov m) := by
  induction cs with
  | nil => intro nele ncol n; exact ⟨n, rfl⟩
  | cons c cs ih =>
    intro nele ncol n
    have e : (cov n).step (.float c) = some (cov 0) := by
      simp only [Known.step, cov_pads]
      rfl
    simp only [covPieces]
    rw [steps_cons _ e]
    split
    · obtain ⟨m, hm⟩ := hc 0
      rw [Known.steps_append, hm]
      exact ih 1 (ncol + 1) m
    · have e2 : (cov 0).step (lit ", ") = some (cov 0) := rfl
      rw [steps_cons _ e2]
      exact ih (nele + 1) ncol 0

theorem steady_known {p : Print} (hs : p.steady = true) : Known.nothing.steps p.pieces ≠ none := by
  cases p with
  | colText col n t g a b c => exact titled_steady _ _ _ (by rw [show Known.title.steps _ = some { Known.title with hex := true } from rfl]; simp)
  | flagText x => exact titledAny_steady _ (by rw [show Known.title.steps _ = some { Known.title with hex := true } from rfl]; simp)
  | intVecText col i => exact titled_steady _ _ _ (by rw [show Known.title.steps _ = some Known.title from rfl]; simp)
  | floatVecText col i => exact titled_steady _ _ _ (by rw [show Known.title.steps _ = some Known.title from rfl]; simp)
  | objectText i => exact titledAny_steady _ (by rw [show Known.title.steps _ = some Known.title from rfl]; simp)
  | paramsText => exact titledAny_steady _ (by simp [Known.steps])
  | runText col r d t => exact titled_steady _ _ _ (by rw [show Known.title.steps _ = some { Known.title with hex := true } from rfl]; simp)
  | rawDataText col a b t => exact titled_steady _ _ _ (by rw [show Known.title.steps _ = some { Known.title with hex := true } from rfl]; simp)
  | rawCalText col a b c t =>
    cases col with
    | some c => cases hs
    | none =>
      simp only [Print.pieces, rawCalText]
      refine titled_steady _ _ _ ?_
      simp [Known.steps, Known.step, Known.title, Known.pads, row', lit]
  | stateText s =>
    refine titledAny_steady _ ?_
    have e : Known.title.steps (row "Location" ++ [.text s.location, .endl, .scientific, .setprecision 6]) = some { Known.title with form := true, prec := true } := rfl
    simp only [List.append_assoc]
    rw [show ∀ qs : List Piece, row "Location" ++ ([.text s.location, .endl, .scientific, .setprecision 6] ++ qs) =
      (row "Location" ++ [.text s.location, .endl, .scientific, .setprecision 6]) ++ qs from fun qs => by simp]
    rw [Known.steps_append, e]
    have e2 : ∀ qs, ({ Known.title with form := true, prec := true } : Known).steps (row "Id" ++ [.text (padded 8 s.id.toInt), .endl] ++ row "D0" ++ [.float s.d0, .endl] ++
      row "Phi" ++ [.float s.phi, .endl] ++ row "Omega" ++ [.float s.omega, .endl] ++ row "Z0" ++ [.float s.z0, .endl] ++ row "Tan Lambda" ++ [.float s.tanLambda, .endl] ++
      row "ReferencePoint" ++ [.text s.pointText, .endl, lit "Cov matrix:", .showpos, .scientific, .setprecision 6, .setw 15, .setfill 32] ++ qs) = (cov 15).steps qs := by
      intro qs
      rw [Known.steps_append]
      rfl
    have e3 := e2 (covPieces [.endl, lit "             "] 1 1 s.cov ++ [.noshowpos])
    simp only [List.append_assoc] at e3
    dsimp only
    rw [e3, Known.steps_append]
    obtain ⟨n, hn⟩ := covPieces_known (close := [.endl, lit "             "]) (fun n => ⟨0, by simp only [Known.steps, Known.step, lit, cov_pads]; rfl⟩) s.cov 1 1 15
    rw [hn]
    simp [Known.steps, Known.step]
  | _ => cases hs

end Util
