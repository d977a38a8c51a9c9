import Verif.Util.BitField
/-
Specification vocabulary: numbers in bit fields.
-/
namespace Spec
open Sio Lcio Util

/-- The number that `w` bits from bit `off` on make. -/
def fieldNum (signed : Bool) (v : W64) (off w : Nat) : Int :=
  if signed then (v.extractLsb' off w).toInt else (v.extractLsb' off w).toNat

/-- The smallest and largest numbers that fit into `w` bits. -/
def fieldLo (signed : Bool) (w : Nat) : Int := if signed then -2 ^ (w - 1) else 0
def fieldHi (signed : Bool) (w : Nat) : Int := if signed then 2 ^ (w - 1) - 1 else 2 ^ w - 1

/-- The widths for which assignment works. -/
def GoodWidth (f : Field) : Prop := f.width ≤ if f.signed then 32 else 30

/-- The number fits into the field. -/
def Fits (f : Field) (x : W64) : Prop := fieldLo f.signed f.width ≤ x.toInt ∧ x.toInt ≤ fieldHi f.signed f.width

/-- Assignments one after the other, whether or not they throw. -/
def assignAll (b : BitField) : List (Nat × W64) → BitField
  | [] => b
  | (i, x) :: as => assignAll (b.set i x).2 as

/-- The last number assigned to field `i`. -/
def lastAssigned (i : Nat) : List (Nat × W64) → Option W64
  | [] => none
  | (j, x) :: as => match lastAssigned i as with
    | some y => some y
    | none => if j = i then some x else none

/-- The layout of a bit field, without its content. -/
structure LayoutEntry where
  name : Str
  offset : Nat
  width : Nat
  signed : Bool
  deriving DecidableEq, Repr

def layout (b : BitField) : List LayoutEntry := b.fields.map fun f => ⟨f.name, f.offset, f.width, f.signed⟩

/-- A field as a user describes it: the first bit may be left out. -/
structure FieldDesc where
  name : Str
  offset : Option Nat
  width : Nat
  signed : Bool

/-- The text of a field description. -/
def FieldDesc.text (d : FieldDesc) : Str :=
  d.name ++ str ":" ++ (match d.offset with | none => [] | some o => dec o ++ str ":") ++ (if d.signed then str "-" else []) ++ dec d.width

/-- The layout that descriptions mean: a field without first bit starts after the field before. -/
def placed : Nat → List FieldDesc → List LayoutEntry
  | _, [] => []
  | next, d :: ds =>
    let o := d.offset.getD next
    ⟨d.name, o, d.width, d.signed⟩ :: placed (o + d.width) ds

/-- Layouts that the class supports: within 64 bits, without overlap, with supported widths and names. -/
def GoodEntry (e : LayoutEntry) : Prop :=
  e.name ≠ [] ∧ (44 : Byte) ∉ e.name ∧ (58 : Byte) ∉ e.name ∧ e.offset ≤ 63 ∧ e.offset + e.width ≤ 64 ∧
  (if e.signed then 1 ≤ e.width ∧ e.width ≤ 62 else e.width ≤ 31)

def GoodLayout (es : List LayoutEntry) : Prop :=
  (∀ e ∈ es, GoodEntry e) ∧ es.Pairwise fun a b => ∀ k, a.offset ≤ k → k < a.offset + a.width → ¬ (b.offset ≤ k ∧ k < b.offset + b.width)

end Spec
