import Verif.Util.BitLemmas
import Verif.Spec.Bits
/-
Lemmas about decimal numbers, tokens and field descriptions.
-/
namespace Util
open Sio Lcio Spec

theorem digit_byte (d : Nat) (h : d < 10) : isDigit (UInt8.ofNat (48 + d)) = true ∧ (UInt8.ofNat (48 + d)).toNat - 48 = d := by
  have : ∀ d : Fin 10, isDigit (UInt8.ofNat (48 + d.val)) = true ∧ (UInt8.ofNat (48 + d.val)).toNat - 48 = d.val := by decide
  exact this ⟨d, h⟩

theorem decLoop_digits (fuel n : Nat) : ∀ c ∈ decLoop fuel n, isDigit c = true := by
  induction fuel generalizing n with
  | zero => intro c hc; cases hc
  | succ fuel ih =>
    intro c hc
    unfold decLoop at hc
    split at hc
    · rw [List.mem_singleton.1 hc]; exact (digit_byte n (by omega)).1
    · rcases List.mem_append.1 hc with hc | hc
      · exact ih _ c hc
      · rw [List.mem_singleton.1 hc]; exact (digit_byte _ (Nat.mod_lt _ (by decide))).1

theorem digits_append (l : Str) (hl : ∀ c ∈ l, isDigit c = true) (rest : Str) (acc : Nat) : digits acc (l ++ rest) = digits (digits acc l) rest := by
  induction l generalizing acc with
  | nil => rfl
  | cons c l ih =>
    have hc := hl c (List.mem_cons_self ..)
    simp only [List.cons_append, digits, hc, ↓reduceIte]
    exact ih (fun c hc => hl c (List.mem_cons_of_mem _ hc)) _

theorem decLoop_value (fuel n : Nat) (h : n < fuel) : digits 0 (decLoop fuel n) = n := by
  induction fuel generalizing n with
  | zero => omega
  | succ fuel ih =>
    unfold decLoop
    split
    · rename_i hn
      obtain ⟨h1, h2⟩ := digit_byte n hn
      simp only [digits, h1, h2, ↓reduceIte]; omega
    · rename_i hn
      obtain ⟨h1, h2⟩ := digit_byte (n % 10) (Nat.mod_lt _ (by decide))
      rw [digits_append _ (decLoop_digits _ _), ih _ (by omega)]
      simp only [digits, h1, h2, ↓reduceIte]; omega

theorem dec_digits (n : Nat) : ∀ c ∈ dec n, isDigit c = true := decLoop_digits _ _
theorem dec_value (n : Nat) : digits 0 (dec n) = n := decLoop_value _ _ (by omega)
theorem dec_ne_nil (n : Nat) : dec n ≠ [] := by
  unfold dec decLoop
  split
  · exact List.cons_ne_nil _ _
  · simp

theorem digit_not (c : Byte) (h : isDigit c = true) : c ≠ 44 ∧ c ≠ 58 ∧ c ≠ 45 ∧ c ≠ 43 ∧ isSpace c = false := by
  have : ∀ c : Fin 256, isDigit (UInt8.ofNat c.val) = true →
    (UInt8.ofNat c.val) ≠ 44 ∧ (UInt8.ofNat c.val) ≠ 58 ∧ (UInt8.ofNat c.val) ≠ 45 ∧ (UInt8.ofNat c.val) ≠ 43 ∧ isSpace (UInt8.ofNat c.val) = false := by decide +kernel
  have h2 := this ⟨c.toNat, c.toNat_lt⟩
  simp only [UInt8.ofNat_toNat] at h2
  exact h2 h

theorem atol_dec (n : Nat) (h : n < 2 ^ 63) : atol (dec n) = .ok n := by
  unfold atol
  have hv := dec_value n
  have hd := dec_digits n
  have hne := dec_ne_nil n
  cases hl : dec n with
  | nil => exact absurd hl hne
  | cons c cs =>
    rw [hl] at hv hd
    obtain ⟨-, -, h45, h43, hsp⟩ := digit_not c (hd c (List.mem_cons_self ..))
    rw [List.dropWhile_cons, hsp]
    simp only [Bool.false_eq_true, ↓reduceIte]
    split
    · rename_i heq; cases heq; exact absurd rfl h45
    · rename_i heq; cases heq; exact absurd rfl h43
    · rw [hv, if_neg (by omega)]

theorem atol_neg (n : Nat) (h : n < 2 ^ 63) : atol (str "-" ++ dec n) = .ok (-(n : Int)) := by
  unfold atol
  have hsp : isSpace 45 = false := by decide
  have e : str "-" ++ dec n = 45 :: dec n := rfl
  rw [e, List.dropWhile_cons, hsp]
  simp only [Bool.false_eq_true, ↓reduceIte, dec_value]
  rw [if_neg (by omega)]

/-! ### Tokens -/

theorem appendLast_snoc (c : Byte) (ts : List Str) (t : Str) : appendLast c (ts ++ [t]) = ts ++ [t ++ [c]] := by
  induction ts with
  | nil => rfl
  | cons a ts ih =>
    cases ts with
    | nil => rfl
    | cons b ts => simp only [List.cons_append, appendLast, List.cons.injEq, true_and] at ih ⊢; exact ih

theorem tok_inside (del : Byte) (t : Str) (ht : del ∉ t) (ts : List Str) (u : Str) (last : Byte) (hl : last ≠ del) :
    ∃ last', last' ≠ del ∧ t.foldl (tokStep del) (ts ++ [u], last) = (ts ++ [u ++ t], last') := by
  induction t generalizing u last with
  | nil => exact ⟨last, hl, by simp⟩
  | cons c t ih =>
    have hc : c ≠ del := fun h => ht (h ▸ List.mem_cons_self ..)
    have ht' : del ∉ t := fun h => ht (List.mem_cons_of_mem _ h)
    obtain ⟨l', h1, h2⟩ := ih ht' (u ++ [c]) c hc
    refine ⟨l', h1, ?_⟩
    rw [List.foldl_cons]
    have : tokStep del (ts ++ [u], last) c = (ts ++ [u ++ [c]], c) := by
      unfold tokStep
      simp only [ne_eq, hc, not_false_eq_true, ↓reduceIte, hl, appendLast_snoc]
    rw [this, h2]
    simp

theorem tok_word (del : Byte) (t : Str) (ht : del ∉ t) (hne : t ≠ []) (ts : List Str) :
    ∃ last', last' ≠ del ∧ t.foldl (tokStep del) (ts, del) = (ts ++ [t], last') := by
  cases t with
  | nil => exact absurd rfl hne
  | cons c t =>
    have hc : c ≠ del := fun h => ht (h ▸ List.mem_cons_self ..)
    have ht' : del ∉ t := fun h => ht (List.mem_cons_of_mem _ h)
    obtain ⟨l', h1, h2⟩ := tok_inside del t ht' ts [c] c hc
    refine ⟨l', h1, ?_⟩
    rw [List.foldl_cons]
    have : tokStep del (ts, del) c = (ts ++ [[c]], c) := by
      unfold tokStep
      simp only [ne_eq, hc, not_false_eq_true, ↓reduceIte]
      rw [appendLast_snoc]; rfl
    rw [this, h2]
    rfl

/-- Words with the delimiter between are taken apart again. -/
def joined (del : Byte) : List Str → Str
  | [] => []
  | [s] => s
  | s :: ss => s ++ del :: joined del ss

theorem tokens_go (del : Byte) (ws : List Str) (h : ∀ w ∈ ws, del ∉ w ∧ w ≠ []) (ts : List Str) :
    ((joined del ws).foldl (tokStep del) (ts, del)).1 = ts ++ ws := by
  induction ws generalizing ts with
  | nil => simp [joined]
  | cons w ws ih =>
    obtain ⟨h1, h2⟩ := h w (List.mem_cons_self ..)
    obtain ⟨l', hl', e⟩ := tok_word del w h1 h2 ts
    cases ws with
    | nil => simp only [joined]; rw [e]
    | cons w' ws =>
      simp only [joined]
      rw [List.foldl_append, e, List.foldl_cons]
      have : tokStep del (ts ++ [w], l') del = (ts ++ [w], del) := by unfold tokStep; simp
      rw [this]
      have := ih (fun w hw => h w (List.mem_cons_of_mem _ hw)) (ts ++ [w])
      rw [this]; simp

theorem tokens_joined (del : Byte) (ws : List Str) (h : ∀ w ∈ ws, del ∉ w ∧ w ≠ []) : tokens del (joined del ws) = ws := by
  unfold tokens; rw [tokens_go del ws h]; rfl

/-- Tokens are not empty, do not contain the delimiter, and are made of characters of the text. -/
theorem tokens_sound_go (del : Byte) (s : Str) (ts : List Str) (last : Byte) (P : Byte → Prop) (hs : ∀ c ∈ s, P c)
    (h : ∀ t ∈ ts, del ∉ t ∧ t ≠ [] ∧ ∀ c ∈ t, P c) (hl : last ≠ del → ts ≠ []) :
    ∀ t ∈ (s.foldl (tokStep del) (ts, last)).1, del ∉ t ∧ t ≠ [] ∧ ∀ c ∈ t, P c := by
  induction s generalizing ts last with
  | nil => exact h
  | cons c s ih =>
    have hs' : ∀ c ∈ s, P c := fun x hx => hs x (List.mem_cons_of_mem _ hx)
    have hcP := hs c (List.mem_cons_self ..)
    rw [List.foldl_cons]
    unfold tokStep
    by_cases hc : c = del
    · simp only [ne_eq, hc, not_true_eq_false, ↓reduceIte]
      exact ih ts del hs' h (fun hh => absurd rfl hh)
    · simp only [ne_eq, hc, not_false_eq_true, ↓reduceIte]
      by_cases hla : last = del
      · simp only [hla, ↓reduceIte]
        rw [appendLast_snoc]
        refine ih _ c hs' ?_ (fun _ => by simp)
        intro t ht
        rcases List.mem_append.1 ht with ht | ht
        · exact h t ht
        · rw [List.mem_singleton.1 ht]
          refine ⟨by simpa using fun hh => hc hh.symm, by simp, ?_⟩
          intro x hx
          simp at hx; rw [hx]; exact hcP
      · simp only [hla, ↓reduceIte]
        have hne := hl hla
        obtain ⟨ts', t', rfl⟩ : ∃ ts' t', ts = ts' ++ [t'] := ⟨ts.dropLast, ts.getLast hne, (List.dropLast_concat_getLast hne).symm⟩
        rw [appendLast_snoc]
        refine ih _ c hs' ?_ (fun _ => by simp)
        intro t ht
        rcases List.mem_append.1 ht with ht | ht
        · exact h t (List.mem_append_left _ ht)
        · rw [List.mem_singleton.1 ht]
          obtain ⟨g1, g2, g3⟩ := h t' (by simp)
          refine ⟨?_, by simp, ?_⟩
          · simp only [List.mem_append, List.mem_singleton, not_or]
            exact ⟨g1, fun hh => hc hh.symm⟩
          · intro x hx
            rcases List.mem_append.1 hx with hx | hx
            · exact g3 x hx
            · rw [List.mem_singleton.1 hx]; exact hcP

theorem tokens_sound (del : Byte) (s : Str) (P : Byte → Prop) (hs : ∀ c ∈ s, P c) : ∀ t ∈ tokens del s, del ∉ t ∧ t ≠ [] ∧ ∀ c ∈ t, P c :=
  tokens_sound_go del s [] del P hs (fun _ h => by cases h) (fun h => absurd rfl h)

/-! ### Descriptions -/

/-- Adding fields one after the other. -/
def addAll : BitField → List (Str × Nat × Int) → Except Err BitField
  | b, [] => .ok b
  | b, (n, o, w) :: l => match b.addField n o w with
    | .error e => .error e
    | .ok b => addAll b l

theorem commas_joined (ss : List Str) : commas ss = joined 44 ss := by
  induction ss with
  | nil => rfl
  | cons s ss ih =>
    cases ss with
    | nil => rfl
    | cons s' ss =>
      simp only [commas, joined] at ih ⊢
      rw [ih]
      simp [str, List.append_assoc]

/-- Names that descriptions can hold. -/
def GoodName (n : Str) : Prop := n ≠ [] ∧ (44 : Byte) ∉ n ∧ (58 : Byte) ∉ n

theorem parse_name {o : Nat} {d : Str} (hd : (44 : Byte) ∉ d) {n : Str} {o' : Nat} {w : Int} {nx : Nat} (h : parseField o d = .ok (n, o', w, nx)) : GoodName n := by
  have ht := tokens_sound 58 d (fun c => c ≠ 44) (fun c hc h => hd (h ▸ hc))
  have key : ∀ t ∈ tokens 58 d, GoodName t := by
    intro t h
    obtain ⟨h1, h2, h3⟩ := ht t h
    exact ⟨h2, fun hh => h3 _ hh rfl, h1⟩
  unfold parseField at h
  split at h
  · rename_i name w' heq
    have : n = name := by
      cases h1 : atol w' with
      | error e => rw [h1] at h; cases h
      | ok x =>
        rw [h1] at h
        simp only [bind, Except.bind] at h
        split at h
        · cases h
        · simp only [Except.ok.injEq, Prod.mk.injEq] at h; exact h.1.symm
    subst this
    exact key _ (by rw [heq]; simp)
  · rename_i name ow w' heq
    have : n = name := by
      cases h1 : atol ow with
      | error e => rw [h1] at h; cases h
      | ok y =>
        cases h2 : atol w' with
        | error e => rw [h1, h2] at h; cases h
        | ok x =>
          rw [h1, h2] at h
          simp only [bind, Except.bind] at h
          split at h
          · cases h
          · simp only [Except.ok.injEq, Prod.mk.injEq] at h; exact h.1.symm
    subst this
    exact key _ (by rw [heq]; simp)
  · cases h

theorem initLoop_addAll {ds : List Str} : ∀ {o : Nat} {b b' : BitField}, (∀ d ∈ ds, (44 : Byte) ∉ d) → initLoop o b ds = .ok b' →
    ∃ fs : List Field, b'.fields = b.fields ++ fs ∧ addAll b (fs.map fun f => (f.name, f.offset, f.sw)) = .ok b' ∧ ∀ f ∈ fs, GoodName f.name := by
  induction ds with
  | nil => intro o b b' _ h; cases h; exact ⟨[], by simp, rfl, fun _ h => by cases h⟩
  | cons d ds ih =>
    intro o b b' hd h
    unfold initLoop at h
    split at h
    · cases h
    · rename_i n o' w nx hp
      split at h
      · cases h
      · rename_i b1 hadd
        obtain ⟨fs, e1, e2, e3⟩ := ih (fun d hd' => hd d (List.mem_cons_of_mem _ hd')) h
        have hadd' := hadd
        unfold BitField.addField at hadd'
        split at hadd'
        · cases hadd'
        · rename_i f hf
          split at hadd'
          · cases hadd'
          · cases hadd'
            obtain ⟨hn, ho, hw, -⟩ := mkField_ok hf
            refine ⟨f :: fs, by rw [e1]; simp, ?_, ?_⟩
            · simp only [List.map_cons, addAll, hn, ho, hw, hadd]
              exact e2
            · intro g hg
              rcases List.mem_cons.1 hg with rfl | hg
              · rw [hn]; exact parse_name (hd d (List.mem_cons_self ..)) hp
              · exact e3 g hg

/-- The width of a described field as the constructor takes it. -/
def descWidth (d : FieldDesc) : Int := if d.signed then -(d.width : Int) else d.width

theorem num_word (s : Bool) (w : Nat) : (44 : Byte) ∉ (if s then str "-" else []) ++ dec w ∧ (58 : Byte) ∉ (if s then str "-" else []) ++ dec w ∧ (if s then str "-" else []) ++ dec w ≠ [] := by
  have h1 : (44 : Byte) ∉ dec w := fun h => (digit_not _ (dec_digits w _ h)).1 rfl
  have h2 : (58 : Byte) ∉ dec w := fun h => (digit_not _ (dec_digits w _ h)).2.1 rfl
  have h3 := dec_ne_nil w
  have e : str "-" = [45] := rfl
  refine ⟨?_, ?_, ?_⟩ <;> cases s <;> simp [e, h1, h2, h3]

theorem text_joined (d : FieldDesc) : d.text = joined 58 (match d.offset with
    | none => [d.name, (if d.signed then str "-" else []) ++ dec d.width]
    | some o => [d.name, dec o, (if d.signed then str "-" else []) ++ dec d.width]) := by
  unfold FieldDesc.text
  have e : str ":" = [58] := rfl
  rw [e]
  cases d.offset with
  | none => simp [joined]
  | some o => simp [joined]

theorem small_toInt32 (w : Int) (h1 : -2 ^ 31 < w) (h2 : w < 2 ^ 31) : toInt32 w = w := by
  unfold toInt32
  rw [BitVec.toInt_ofInt]
  apply Int.bmod_eq_of_le <;> omega

theorem small_toUInt32 (n : Nat) (h : n < 2 ^ 32) : toUInt32 n = n := by
  unfold toUInt32
  rw [BitVec.toNat_ofInt]
  have : ((n : Int) % ((2 ^ 32 : Nat) : Int)) = n := Int.emod_eq_of_lt (by omega) (by omega)
  rw [this]; rfl

theorem atol_width (d : FieldDesc) (h : d.width ≤ 64) : atol ((if d.signed then str "-" else []) ++ dec d.width) = .ok (descWidth d) := by
  unfold descWidth
  cases d.signed with
  | true => exact atol_neg _ (by omega)
  | false => exact atol_dec _ (by omega)

theorem parse_text (d : FieldDesc) (hn : GoodName d.name) (next : Nat) (hw : d.width ≤ 64) (ho : d.offset.getD next ≤ 63) :
    parseField next d.text = .ok (d.name, d.offset.getD next, descWidth d, d.offset.getD next + d.width) := by
  obtain ⟨n1, n2, n3⟩ := num_word d.signed d.width
  have hwid := atol_width d hw
  have hdw : -64 ≤ descWidth d ∧ descWidth d ≤ 64 ∧ (descWidth d).natAbs = d.width := by
    unfold descWidth; cases d.signed <;> simp <;> omega
  have hti : toInt32 (descWidth d) = descWidth d := small_toInt32 _ (by omega) (by omega)
  have hne : descWidth d ≠ -2 ^ 31 := by omega
  unfold parseField
  rw [text_joined]
  cases hoff : d.offset with
  | none =>
    simp only
    rw [tokens_joined 58 _ (by
      intro w hw
      simp only [List.mem_cons, List.not_mem_nil, or_false] at hw
      rcases hw with rfl | rfl
      · exact ⟨hn.2.2, hn.1⟩
      · exact ⟨n2, n3⟩)]
    simp only [hwid, bind, Except.bind, hti, hne, ↓reduceIte, Option.getD_none, hdw.2.2]
    rw [hoff] at ho
    simp only [Option.getD_none] at ho
    rw [Nat.mod_eq_of_lt (by omega)]
  | some o =>
    rw [hoff] at ho
    simp only [Option.getD_some] at ho
    simp only
    rw [tokens_joined 58 _ (by
      intro w hw
      simp only [List.mem_cons, List.not_mem_nil, or_false] at hw
      rcases hw with rfl | rfl | rfl
      · exact ⟨hn.2.2, hn.1⟩
      · exact ⟨fun h => (digit_not _ (dec_digits o _ h)).2.1 rfl, dec_ne_nil o⟩
      · exact ⟨n2, n3⟩)]
    simp only [atol_dec o (by omega), hwid, bind, Except.bind, hti, hne, ↓reduceIte, Option.getD_some, hdw.2.2, small_toUInt32 o (by omega)]
    rw [Nat.mod_eq_of_lt (by omega)]

theorem text_word (d : FieldDesc) (hn : GoodName d.name) : (44 : Byte) ∉ d.text ∧ d.text ≠ [] := by
  obtain ⟨n1, n2, n3⟩ := num_word d.signed d.width
  have e : str ":" = [58] := rfl
  have ho : ∀ o, (44 : Byte) ∉ dec o := fun o h => (digit_not _ (dec_digits o _ h)).1 rfl
  have hx := List.mem_append.not.1 n1
  rw [not_or] at hx
  unfold FieldDesc.text
  rw [e]
  constructor
  · cases d.offset <;> simp only [List.mem_append, not_or] <;> simp [hn.2.1, hx.1, hx.2, ho]
  · simp

/-- The entries as `addField` takes them. -/
def entryArgs (e : LayoutEntry) : Str × Nat × Int := (e.name, e.offset, if e.signed then -(e.width : Int) else e.width)

theorem initLoop_text (ds : List FieldDesc) (next : Nat) (b : BitField) (h : ∀ e ∈ placed next ds, GoodName e.name ∧ e.offset ≤ 63 ∧ e.width ≤ 64) :
    initLoop next b (ds.map FieldDesc.text) = addAll b ((placed next ds).map entryArgs) := by
  induction ds generalizing next b with
  | nil => rfl
  | cons d ds ih =>
    simp only [placed, List.mem_cons, forall_eq_or_imp] at h
    obtain ⟨⟨h1, h2, h3⟩, h4⟩ := h
    simp only [List.map_cons, initLoop, placed, addAll, entryArgs]
    rw [parse_text d h1 next h3 h2]
    simp only [descWidth]
    cases b.addField d.name (d.offset.getD next) (if d.signed = true then -↑d.width else ↑d.width) with
    | error e => rfl
    | ok b => exact ih _ _ h4

theorem make_text (ds : List FieldDesc) (h : ∀ e ∈ placed 0 ds, GoodName e.name ∧ e.offset ≤ 63 ∧ e.width ≤ 64) (hn : ∀ d ∈ ds, GoodName d.name) :
    BitField.make (commas (ds.map FieldDesc.text)) = addAll {} ((placed 0 ds).map entryArgs) := by
  unfold BitField.make
  rw [commas_joined, tokens_joined 44 _ (by
    intro w hw
    obtain ⟨d, hd, rfl⟩ := List.mem_map.1 hw
    exact text_word d (hn d hd))]
  exact initLoop_text ds 0 {} h

theorem mkField_good (e : LayoutEntry) (h : GoodEntry e) : ∃ f, mkField e.name e.offset (if e.signed then -(e.width : Int) else e.width) = .ok f ∧
    f.name = e.name ∧ f.offset = e.offset ∧ f.width = e.width ∧ f.signed = e.signed ∧ FieldOk f := by
  obtain ⟨-, -, -, h1, h2, h3⟩ := h
  cases hs : e.signed with
  | true =>
    rw [hs] at h3
    simp only [↓reduceIte] at h3 ⊢
    have c1 : ¬ (-(e.width : Int) = -2 ^ 31) := by omega
    have c2 : (-(e.width : Int)).natAbs = e.width := by omega
    have c3 : ¬ (e.offset > 63 ∨ e.offset + e.width > 64) := by omega
    have c4 : ¬ 63 ≤ e.width := by omega
    have c5 : -(e.width : Int) < 0 := by omega
    have hm : mkField e.name e.offset (-(e.width : Int)) = .ok { name := e.name, offset := e.offset, width := e.width, signed := true, mask := (((1 : W64) <<< e.width) - 1) <<< e.offset, minVal := ((((1 : W64) <<< (e.width - 1)) - ((1 : W64) <<< e.width)).setWidth 32).toInt, maxVal := ((((1 : W64) <<< (e.width - 1)) - 1).setWidth 32).toInt } := by
      unfold mkField
      simp only [c1, ↓reduceIte, c2, c3, c4, c5]
    exact ⟨_, hm, rfl, rfl, rfl, rfl, (mkField_ok hm).2.2.2⟩
  | false =>
    rw [hs] at h3
    simp only [Bool.false_eq_true, ↓reduceIte] at h3 ⊢
    have c1 : ¬ ((e.width : Int) = -2 ^ 31) := by omega
    have c2 : ((e.width : Int)).natAbs = e.width := by omega
    have c3 : ¬ (e.offset > 63 ∨ e.offset + e.width > 64) := by omega
    have c4 : ¬ 63 ≤ e.width := by omega
    have c5 : ¬ (e.width : Int) < 0 := by omega
    have c6 : ¬ 32 ≤ e.width := by omega
    have hm : mkField e.name e.offset (e.width : Int) = .ok { name := e.name, offset := e.offset, width := e.width, signed := false, mask := (((1 : W64) <<< e.width) - 1) <<< e.offset, minVal := 0, maxVal := ((1 : W32) <<< e.width).toInt } := by
      unfold mkField
      simp only [c1, ↓reduceIte, c2, c3, c4, c5, c6]
    exact ⟨_, hm, rfl, rfl, rfl, rfl, (mkField_ok hm).2.2.2⟩

theorem addAll_good (es : List LayoutEntry) (h : GoodLayout es) (b : BitField) (hb : Made b)
    (hap : ∀ f ∈ b.fields, ∀ e ∈ es, ∀ k, f.offset ≤ k → k < f.offset + f.width → ¬ (e.offset ≤ k ∧ k < e.offset + e.width)) :
    ∃ b', addAll b (es.map entryArgs) = .ok b' ∧ layout b' = layout b ++ es := by
  induction es generalizing b with
  | nil => exact ⟨b, rfl, by simp⟩
  | cons e es ih =>
    obtain ⟨h1, h2⟩ := h
    rw [List.pairwise_cons] at h2
    obtain ⟨f, hf, fn, fo, fw, fs, fok⟩ := mkField_good e (h1 e (List.mem_cons_self ..))
    have hadd : b.addField e.name e.offset (if e.signed then -(e.width : Int) else e.width) =
        .ok { b with fields := b.fields ++ [f], map := (omAssign strLt e.name b.fields.length b.map).1, joined := b.joined ||| f.mask } := by
      unfold BitField.addField
      simp only [hf]
      rw [if_neg]
      rw [bne_iff_ne, ne_eq, not_not]
      apply BitVec.eq_of_getLsbD_eq
      intro k hk
      rw [BitVec.getLsbD_and, mask_bit fok, fo, fw]
      cases hj : b.joined.getLsbD k with
      | false => simp
      | true =>
        obtain ⟨g, hg, hg1, hg2⟩ := (hb.joined k).1 hj
        have := hap g hg e (List.mem_cons_self ..) k hg1 hg2
        simp only [Bool.true_and]
        rw [decide_eq_false this]; simp
    have hb' := (hb.add hadd).1
    obtain ⟨b'', e1, e2⟩ := ih ⟨fun x hx => h1 x (List.mem_cons_of_mem _ hx), h2.2⟩ _ hb' (by
      intro g hg x hx k hk1 hk2
      rcases List.mem_append.1 hg with hg | hg
      · exact hap g hg x (List.mem_cons_of_mem _ hx) k hk1 hk2
      · rw [List.mem_singleton.1 hg, fo, ] at hk1
        rw [List.mem_singleton.1 hg, fo, fw] at hk2
        exact h2.1 x hx k hk1 hk2)
    refine ⟨b'', ?_, ?_⟩
    · simp only [List.map_cons, entryArgs, addAll]
      rw [hadd]
      exact e1
    · rw [e2]
      unfold layout
      simp [fn, fo, fw, fs]

end Util
