import Verif.Spec.FormatObjects
import Verif.Lcio.ObjectLemmas
/-
Lemmas about the documented format: versions and conditions.
-/
namespace Lcio
open Sio Spec

/-! ### Versions -/

theorem major_toNat (v : W32) : (majorVersion v).toNat = v.toNat / 65536 := by
  have hs : ((v &&& 0xffff0000#32) >>> 16) = v >>> 16 := by
    apply BitVec.eq_of_getLsbD_eq
    intro i hi
    simp only [BitVec.getLsbD_ushiftRight, BitVec.getLsbD_and]
    have : (0xffff0000#32).getLsbD (16 + i) = decide (16 + i < 32) := by
      have hcases : ∀ j, j < 32 → (0xffff0000#32).getLsbD (16 + j) = decide (16 + j < 32) := by decide
      exact hcases i hi
    rw [this]
    by_cases hj : 16 + i < 32
    · simp [hj]
    · simp [hj, BitVec.getLsbD_of_ge _ _ (show 32 ≤ 16 + i by omega)]
  unfold majorVersion
  rw [hs]
  have := v.isLt
  simp [Nat.shiftRight_eq_div_pow]
  omega

theorem minor_toNat (v : W32) : (minorVersion v).toNat = v.toNat % 65536 := by
  have land16 : ∀ n : Nat, n &&& 0xffff = n % 65536 := fun n => Nat.and_two_pow_sub_one_eq_mod n 16
  simp only [minorVersion, BitVec.truncate_eq_setWidth, BitVec.toNat_setWidth, BitVec.toNat_and]
  have : (0x0000ffff#32).toNat = 0xffff := rfl
  rw [this, land16]
  omega

theorem encode_toNat (a b : Nat) (ha : a < 1000) (hb : b < 1000) : (encodeVersion (BitVec.ofNat 16 a) (BitVec.ofNat 16 b)).toNat = a * 65536 + b := by
  simp [encodeVersion, BitVec.toNat_add, BitVec.toNat_shiftLeft, Nat.shiftLeft_eq]
  omega

theorem newer_doc (v : W32) (hv : (minorVersion v).toNat < 1000) (a b : Nat) (ha : a < 1000) (hb : b < 1000) :
    newer v a b = decide (1000 * a + b < docVersion v) := by
  unfold newer docVersion
  rw [encode_toNat a b ha hb]
  rw [minor_toNat] at hv
  rw [major_toNat, minor_toNat]
  congr 1
  apply propext
  omega

theorem atLeast_doc (v : W32) (hv : (minorVersion v).toNat < 1000) (a b : Nat) (ha : a < 1000) (hb : b < 1000) :
    atLeast v a b = decide (1000 * a + b ≤ docVersion v) := by
  unfold atLeast docVersion
  rw [encode_toNat a b ha hb]
  rw [minor_toNat] at hv
  rw [major_toNat, minor_toNat]
  congr 1
  apply propext
  omega

theorem isV08_doc (v : W32) (hv : (minorVersion v).toNat < 1000) : isV08 v = decide (docVersion v = 8) := by
  unfold isV08 docVersion
  rw [← Bool.decide_and]
  congr 1
  rw [← BitVec.toNat_inj, ← BitVec.toNat_inj]
  apply propext
  rw [show (0 : BitVec 16).toNat = 0 from rfl, show (8 : BitVec 16).toNat = 8 from rfl]
  omega

/-! ### Normal form -/

theorem encode_when (v : Nat) (c : FCond) (y z next : Fmt) (s : List FRec) :
    encode v (.when c y z next) s = wIf (c.holds v s) (encode v y s) ++ (wIf (!c.holds v s) (encode v z s) ++ encode v next s) := by
  rw [encode, ← List.append_assoc]
  cases c.holds v s <;> simp [wIf]

theorem wIf_false (x : List Item) : wIf false x = [] := rfl
theorem wIf_true (x : List Item) : wIf true x = x := rfl
theorem wIf_nil (c : Bool) : wIf c ([] : List Item) = [] := by cases c <;> rfl
theorem wIf_append (c : Bool) (a b : List Item) : wIf c (a ++ b) = wIf c a ++ wIf c b := by cases c <;> rfl
theorem wIf_wIf (a b : Bool) (x : List Item) : wIf a (wIf b x) = wIf (a && b) x := by cases a <;> rfl
theorem wIf_both (c : Bool) (x y : List Item) : wIf c x ++ (wIf (!c) x ++ y) = x ++ y := by cases c <;> rfl

theorem encode_done (v : Nat) (s : List FRec) : encode v .done s = [] := rfl
theorem encode_data (v : Nat) (t : FType) (n : Nat) (name : String) (next : Fmt) (r : FRec) (s : List FRec) :
    encode v (.data t n name next) (r :: s) = encodeField t n (field name r) ++ encode v next (r :: s) := rfl
theorem encode_sub (v : Nat) (body next : Fmt) (s : List FRec) : encode v (.sub body next) s = encode v body s ++ encode v next s := rfl
/-- What is repeated. -/
def repRows (x vis : Option FVal) (f : FRec → List Item) : List Item := match x with
  | some (.rows l) => if vis.isNone ∨ FVal.asWord vis = BitVec.ofNat 32 l.length then l.flatMap f else [.bad]
  | _ => [.bad]
/-- An array of short numbers. -/
def repHalves (x : Option FVal) : List Item := match x with
  | some (.halves l) => if l.isEmpty then [] else [.arr 2 (l.map BitVec.toNat)]
  | _ => [.bad]

theorem encode_rep (v : Nat) (count : String) (body next : Fmt) (r : FRec) (s : List FRec) :
    encode v (.rep count body next) (r :: s) = repRows (field count r) (visible count s) (fun r' => encode v body (r' :: r :: s)) ++ encode v next (r :: s) := rfl
theorem encode_shorts (v : Nat) (count name : String) (next : Fmt) (r : FRec) (s : List FRec) :
    encode v (.shorts count name next) (r :: s) = repHalves (field count r) ++ encode v next (r :: s) := rfl

theorem repRows_none (l : List FRec) (f : FRec → List Item) : repRows (some (.rows l)) none f = l.flatMap f := rfl
theorem repRows_map {β : Type} (l : List β) (g : β → FRec) (f : FRec → List Item) : repRows (some (.rows (l.map g))) none f = l.flatMap fun x => f (g x) := by
  rw [repRows_none, List.flatMap_map]
theorem repRows_word (l : List FRec) (f : FRec → List Item) (n : Nat) (h : n = l.length) :
    repRows (some (.rows l)) (some (.word (BitVec.ofNat 32 n))) f = l.flatMap f := by
  subst h
  simp [repRows, FVal.asWord]
theorem repRows_count {β : Type} (l : List β) (g : β → FRec) (f : FRec → List Item) :
    repRows (some (.rows (l.map g))) (some (.word (BitVec.ofNat 32 l.length))) f = l.flatMap fun x => f (g x) := by
  rw [repRows_word _ _ _ (by simp), List.flatMap_map]
theorem repHalves_some (l : List W16) : repHalves (some (.halves l)) = if l.isEmpty then [] else [.arr 2 (l.map BitVec.toNat)] := rfl

theorem visible_nil (name : String) : visible name [] = none := rfl
/-- The first of two. -/
def orElse (a b : Option FVal) : Option FVal := match a with
  | some x => some x
  | none => b
theorem visible_cons (name : String) (r : FRec) (s : List FRec) : visible name (r :: s) = orElse (field name r) (visible name s) := rfl
theorem orElse_some (x : FVal) (b : Option FVal) : orElse (some x) b = some x := rfl
theorem orElse_none (b : Option FVal) : orElse none b = b := rfl

theorem field_nil (name : String) : field name [] = none := rfl
theorem field_cons (name n : String) (x : FVal) (r : FRec) : field name ((n, x) :: r) = if n = name then some x else field name r := by rw [field]

theorem asWord_word (w : W32) : FVal.asWord (some (.word w)) = w := rfl
theorem asWord_rows (l : List FRec) : FVal.asWord (some (.rows l)) = BitVec.ofNat 32 l.length := rfl
theorem asWord_none : FVal.asWord none = 0 := rfl

theorem enc_int (w : W32) : encodeField .int 1 (some (.word w)) = w32 w := rfl
theorem enc_int_rows (l : List FRec) : encodeField .int 1 (some (.rows l)) = w32 (BitVec.ofNat 32 l.length) := rfl
theorem enc_int_halves (l : List W16) : encodeField .int 1 (some (.halves l)) = w32 (BitVec.ofNat 32 l.length) := rfl
theorem enc_float (w : W32) : encodeField .float 1 (some (.word w)) = w32 w := rfl
theorem enc_long (w : W64) : encodeField .long 1 (some (.dword w)) = w64 w := rfl
theorem enc_double (w : W64) : encodeField .double 1 (some (.dword w)) = w64 w := rfl
theorem enc_ints (n : Nat) (l : List W32) : encodeField .int n (some (.words l)) = if l.length = n then l.flatMap w32 else [.bad] := by
  rcases n with _ | _ | n <;> rfl
theorem enc_floats (n : Nat) (l : List W32) : encodeField .float n (some (.words l)) = if l.length = n then l.flatMap w32 else [.bad] := by
  rcases n with _ | _ | n <;> rfl
theorem enc_doubles (n : Nat) (l : List W64) : encodeField .double n (some (.dwords l)) = if l.length = n then l.flatMap w64 else [.bad] := by
  rcases n with _ | _ | n <;> rfl
theorem enc_string (s : Str) : encodeField .string 1 (some (.text s)) = wStr s := rfl
theorem enc_ptag (a : Nat) : encodeField .ptag 1 (some (.ref a)) = wTag a := rfl
theorem enc_pntr (a : Nat) : encodeField .pntr 1 (some (.ref a)) = wPtr a := rfl

/-- The fields at the beginning of the block that contains objects. -/
def head (k : Kind) (flag : W32) (p : Params) (sz : Nat × Nat × Nat) (l : List FRec) : FRec := docHead k flag p sz ++ [((docRow k).1, .rows l)]

/-- The rules for what a description means. -/
syntax "descr" "[" Lean.Parser.Tactic.simpLemma,* "]" : tactic
macro_rules
  | `(tactic| descr [$ls,*]) => `(tactic|
    simp only [$ls,*, encode_when, encode_done, encode_data, encode_sub, encode_rep, encode_shorts, repRows_map, repHalves_some, visible_nil, visible_cons,
      orElse_some, orElse_none, field_nil, field_cons, asWord_word, asWord_rows, asWord_none, enc_int, enc_int_rows, enc_int_halves, enc_float, enc_long,
      enc_double, enc_ints, enc_floats, enc_doubles, enc_string, enc_ptag, enc_pntr, FCond.holds,
      head, docHead, docParameters, docRow, column, wIf_nil, wIf_append, wIf_wIf, List.length_map, List.append_nil, List.nil_append,
      List.append_assoc, List.cons_append, String.reduceEq, reduceCtorEq, ↓reduceIte, false_and, Bool.false_eq_true, Bool.not_not, Bool.not_false, Bool.not_true, Bool.false_and, Bool.true_and, wIf_true, wIf_false])

/-! ### Which fields are there -/

theorem has_done (v : Nat) (s : List FRec) (name : String) : Fmt.has v s name .done = false := by rw [Fmt.has]
theorem has_data (v : Nat) (s : List FRec) (name n : String) (t : FType) (k : Nat) (next : Fmt) :
    Fmt.has v s name (.data t k n next) = (n == name || next.has v s name) := by rw [Fmt.has]
theorem has_when (v : Nat) (s : List FRec) (name : String) (c : FCond) (y z next : Fmt) :
    Fmt.has v s name (.when c y z next) = (c.holds v s && y.has v s name || !c.holds v s && z.has v s name || next.has v s name) := by
  rw [Fmt.has]
  cases c.holds v s <;> simp
theorem has_rep (v : Nat) (s : List FRec) (name count : String) (body next : Fmt) : Fmt.has v s name (.rep count body next) = next.has v s name := by rw [Fmt.has]
theorem has_shorts (v : Nat) (s : List FRec) (name count n : String) (next : Fmt) :
    Fmt.has v s name (.shorts count n next) = (n == name || next.has v s name) := by rw [Fmt.has]
theorem has_sub (v : Nat) (s : List FRec) (name : String) (body next : Fmt) :
    Fmt.has v s name (.sub body next) = (body.has v s name || next.has v s name) := by rw [Fmt.has]

/-- The rules for which fields are there. -/
syntax "fields" "[" Lean.Parser.Tactic.simpLemma,* "]" : tactic
macro_rules
  | `(tactic| fields [$ls,*]) => `(tactic|
    simp only [$ls,*, given, has_done, has_data, has_when, has_rep, has_shorts, has_sub, visible_nil, visible_cons, orElse_some, orElse_none, field_nil,
      field_cons, asWord_word, asWord_rows, asWord_none, FCond.holds, head, docHead, docParameters, docRow, List.append_nil, List.nil_append, List.append_assoc,
      List.cons_append, String.reduceEq, String.reduceBEq, reduceCtorEq, ↓reduceIte, false_and, Bool.false_eq_true, Bool.not_not, Bool.and_true,
      Bool.and_false, Bool.or_false, Bool.false_or, Bool.or_true, Bool.true_or, Bool.true_and, Bool.not_false, Bool.not_true])

/-! ### Reading -/

/-- The conditions of the handlers in terms of the number of a version. -/
structure Vers (vers : W32) (v : Nat) : Prop where
  n1_0 : newer vers 1 0 = decide (1000 < v)
  n1_1 : newer vers 1 1 = decide (1001 < v)
  n1_2 : newer vers 1 2 = decide (1002 < v)
  n1_6 : newer vers 1 6 = decide (1006 < v)
  n1_7 : newer vers 1 7 = decide (1007 < v)
  n1_9 : newer vers 1 9 = decide (1009 < v)
  n1_11 : newer vers 1 11 = decide (1011 < v)
  n1_12 : newer vers 1 12 = decide (1012 < v)
  n1_51 : newer vers 1 51 = decide (1051 < v)
  n2_6 : newer vers 2 6 = decide (2006 < v)
  n2_7 : newer vers 2 7 = decide (2007 < v)
  n2_10 : newer vers 2 10 = decide (2010 < v)
  a2_0 : atLeast vers 2 0 = decide (2000 ≤ v)
  v08 : isV08 vers = decide (v = 8)

theorem Vers.of (vers : W32) (hv : (minorVersion vers).toNat < 1000) : Vers vers (docVersion vers) where
  n1_0 := newer_doc vers hv 1 0 (by decide) (by decide)
  n1_1 := newer_doc vers hv 1 1 (by decide) (by decide)
  n1_2 := newer_doc vers hv 1 2 (by decide) (by decide)
  n1_6 := newer_doc vers hv 1 6 (by decide) (by decide)
  n1_7 := newer_doc vers hv 1 7 (by decide) (by decide)
  n1_9 := newer_doc vers hv 1 9 (by decide) (by decide)
  n1_11 := newer_doc vers hv 1 11 (by decide) (by decide)
  n1_12 := newer_doc vers hv 1 12 (by decide) (by decide)
  n1_51 := newer_doc vers hv 1 51 (by decide) (by decide)
  n2_6 := newer_doc vers hv 2 6 (by decide) (by decide)
  n2_7 := newer_doc vers hv 2 7 (by decide) (by decide)
  n2_10 := newer_doc vers hv 2 10 (by decide) (by decide)
  a2_0 := atLeast_doc vers hv 2 0 (by decide) (by decide)
  v08 := isV08_doc vers hv

theorem doc_blockVersion : docVersion blockVersion = 2015 := by decide
theorem Vers.now : Vers blockVersion 2015 := by
  have := Vers.of blockVersion (by decide)
  rw [doc_blockVersion] at this
  exact this

theorem flatMap_mem {β γ : Type} {f g : β → List γ} {l : List β} (h : ∀ x ∈ l, f x = g x) : l.flatMap f = l.flatMap g := by
  induction l with
  | nil => rfl
  | cons x l ih => rw [List.flatMap_cons, List.flatMap_cons, h x (by simp), ih (fun y hy => h y (by simp [hy]))]

theorem flat_eachPtr (l : List Nat) : flat (l.flatMap wPtr) = l.flatMap wPtr := by rw [flat_flatMap]; rfl

section
variable (φ : Nat → Nat) (is : List Item) (n : Nat) (rg : List (Nat × Nat))

theorem runF_sizedPtr (l : List Nat) (hl : small l.length) :
    (rSized rPtr).runF φ ⟨w32 (BitVec.ofNat 32 l.length) ++ (l.flatMap wPtr ++ is), n, rg⟩ = some (l.map φ, ⟨is, n, rg⟩) := by
  have := runF_rSizedPtr φ is n rg l hl
  unfold wEach at this
  rwa [List.append_assoc] at this

theorem runF_sized32 (l : List W32) (hl : small l.length) :
    (rSized r32).runF φ ⟨w32 (BitVec.ofNat 32 l.length) ++ (l.flatMap w32 ++ is), n, rg⟩ = some (l, ⟨is, n, rg⟩) := by
  have := runF_rSized32 φ is n rg l hl
  unfold wEach at this
  rwa [List.append_assoc] at this

theorem runF_for32 (l : List W32) (hl : small l.length) :
    (rFor r32).runF φ ⟨w32 (BitVec.ofNat 32 l.length) ++ (l.flatMap w32 ++ is), n, rg⟩ = some (l, ⟨is, n, rg⟩) := by
  have := runF_rFor32 φ is n rg l hl
  unfold wEach at this
  rwa [List.append_assoc] at this

theorem runF_sized {α β : Type} (p : RProg α) (w : β → List Item) (g : β → α) (l : List β) (hl : small l.length)
    (h : ∀ x ∈ l, ∀ is n rg, p.runF φ ⟨w x ++ is, n, rg⟩ = some (g x, ⟨is, n, rg⟩)) :
    (rSized p).runF φ ⟨w32 (BitVec.ofNat 32 l.length) ++ (l.flatMap w ++ is), n, rg⟩ = some (l.map g, ⟨is, n, rg⟩) := by
  have := runF_rSized φ is n rg p w g l hl h
  unfold wEach at this
  rwa [List.append_assoc] at this

theorem runF_for {α β : Type} (p : RProg α) (w : β → List Item) (g : β → α) (l : List β) (hl : small l.length)
    (h : ∀ x ∈ l, ∀ is n rg, p.runF φ ⟨w x ++ is, n, rg⟩ = some (g x, ⟨is, n, rg⟩)) :
    (rFor p).runF φ ⟨w32 (BitVec.ofNat 32 l.length) ++ (l.flatMap w ++ is), n, rg⟩ = some (l.map g, ⟨is, n, rg⟩) := by
  have := runF_rFor φ is n rg p w g l hl h
  unfold wEach at this
  rwa [List.append_assoc] at this

theorem runF_ifSizedPtr (c : Bool) (l d : List Nat) (hl : small l.length) :
    (rIf c (rSized rPtr) d).runF φ ⟨wIf c (w32 (BitVec.ofNat 32 l.length)) ++ (wIf c (l.flatMap wPtr) ++ is), n, rg⟩ =
    some (if c then l.map φ else d, ⟨is, n, rg⟩) := by
  cases c
  · rfl
  · exact runF_sizedPtr φ is n rg l hl

theorem runF_ifSized32 (c : Bool) (l d : List W32) (hl : small l.length) :
    (rIf c (do let n ← rCount; r32s n) d).runF φ ⟨wIf c (w32 (BitVec.ofNat 32 l.length)) ++ (wIf c (l.flatMap w32) ++ is), n, rg⟩ =
    some (if c then l else d, ⟨is, n, rg⟩) := by
  have := runF_ifCounted φ is n rg c l d hl
  unfold wEach at this
  rwa [wIf_append, List.append_assoc] at this

theorem runF_ifPtr (c : Bool) (a d : Nat) : (rIf c rPtr d).runF φ ⟨wIf c (wPtr a) ++ is, n, rg⟩ = some (if c then φ a else d, ⟨is, n, rg⟩) :=
  runF_rIf φ is n rg c rPtr d _ _ (runF_rPtr ..)

end

/-- The rules for reading a list of calls from a file of any version. -/
syntax "reading" "[" Lean.Parser.Tactic.simpLemma,* "]" : tactic
macro_rules
  | `(tactic| reading [$ls,*]) => `(tactic|
    simp only [$ls,*, Ctx.bit, flat_append, List.append_assoc, flat_nil, flat_w32, flat_w64, flat_wPtr, flat_wTag, flat_each32, flat_each64, flat_wIf,
      flat_eachPtr, runF_bind, Option.bind_some, runF_r32, runF_r64, runF_rPtr, runF_rTag, runF_rNew, runF_if32, runF_ifPtr, runF_ifTag, runF_pure, runF_ret,
      List.nil_append])

end Lcio
