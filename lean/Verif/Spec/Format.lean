import Verif.Lcio.Collection
/-
The language in which cmake/lcio.xml.in describes the format of files, and what a description means. (C76, C77)
-/
namespace Spec
open Sio Lcio

/-- The types of fields. `ptag` is the place at which an object can be pointed at, `pntr` a pointer. -/
inductive FType where
  | int | long | float | double | string | ptag | pntr

/-- Conditions. The number of a version is `1000*major+minor`. -/
inductive FCond where
  | before (n : Nat)
  | after (n : Nat)
  | version (n : Nat)
  /-- bit `i` of a field, `(name>>i)&1 == 1` -/
  | bit (name : String) (i : Nat)
  /-- `(name&mask)==value` -/
  | masked (name : String) (mask value : Nat)
  | zero (name : String)
  | not (c : FCond)
  | and (a b : FCond)
  | or (a b : FCond)

/-- Descriptions of a format. -/
inductive Fmt where
  /-- nothing more -/
  | done
  /-- a field with `count` numbers, a string or a pointer, and then `next` -/
  | data (t : FType) (count : Nat) (name : String) (next : Fmt)
  /-- if and else -/
  | when (c : FCond) (yes no next : Fmt)
  /-- the field `count` says how often `body` is repeated -/
  | rep (count : String) (body next : Fmt)
  /-- an array of short numbers; the field `count` says how many. Arrays are padded to a multiple of four bytes at the end. -/
  | shorts (count name : String) (next : Fmt)
  /-- an included subroutine -/
  | sub (body next : Fmt)

/-! ## Contents -/

/-- The contents of a field. Numbers are bit patterns. What is repeated belongs to the field with the count. -/
inductive FVal where
  | word (v : W32)
  | words (l : List W32)
  | dword (v : W64)
  | dwords (l : List W64)
  | halves (l : List W16)
  | text (s : Str)
  | ref (a : Nat)
  | rows (l : List (List (String × FVal)))

/-- Fields with their names. -/
abbrev FRec := List (String × FVal)

/-- The field of this name. -/
def field (name : String) : FRec → Option FVal
  | [] => none
  | (n, x) :: r => if n = name then some x else field name r

/-- The field of this name in the innermost of some nested records that has one. -/
def visible (name : String) : List FRec → Option FVal
  | [] => none
  | r :: rs => match field name r with
    | some x => some x
    | none => visible name rs

/-- A field as a word. -/
def FVal.asWord : Option FVal → W32
  | some (.word v) => v
  | some (.rows l) => BitVec.ofNat 32 l.length
  | some (.halves l) => BitVec.ofNat 32 l.length
  | _ => 0

/-- The meaning of a condition in a file of version `v`. -/
def FCond.holds (v : Nat) (scope : List FRec) : FCond → Bool
  | .before n => decide (v < n)
  | .after n => decide (n < v)
  | .version n => decide (v = n)
  | .bit name i => (FVal.asWord (visible name scope)).getLsbD i
  | .masked name m x => (FVal.asWord (visible name scope)).toNat &&& m == x
  | .zero name => FVal.asWord (visible name scope) == 0
  | .not c => !c.holds v scope
  | .and a b => a.holds v scope && b.holds v scope
  | .or a b => a.holds v scope || b.holds v scope

/-- The field `name` is there, in a file of version `v` in which the fields outside (the flag word) are `scope`. -/
def Fmt.has (v : Nat) (scope : List FRec) (name : String) : Fmt → Bool
  | .done => false
  | .data _ _ n next => n == name || next.has v scope name
  | .when c yes no next => (if c.holds v scope then yes.has v scope name else no.has v scope name) || next.has v scope name
  | .rep _ _ next => next.has v scope name
  | .shorts _ n next => n == name || next.has v scope name
  | .sub body next => body.has v scope name || next.has v scope name

/-- The contents of one field: words and double words, a string, or a pointer. `.bad` if they do not fit the type. -/
def encodeField : FType → Nat → Option FVal → List Item
  | .int, 1, some (.word v) => w32 v
  | .int, 1, some (.rows l) => w32 (BitVec.ofNat 32 l.length)
  | .int, 1, some (.halves l) => w32 (BitVec.ofNat 32 l.length)
  | .float, 1, some (.word v) => w32 v
  | .long, 1, some (.dword v) => w64 v
  | .double, 1, some (.dword v) => w64 v
  | .int, n, some (.words l) => if l.length = n then l.flatMap w32 else [.bad]
  | .float, n, some (.words l) => if l.length = n then l.flatMap w32 else [.bad]
  | .double, n, some (.dwords l) => if l.length = n then l.flatMap w64 else [.bad]
  | .string, 1, some (.text s) => wStr s
  | .ptag, 1, some (.ref a) => wTag a
  | .pntr, 1, some (.ref a) => wPtr a
  | _, _, _ => [.bad]

/-- What a file of version `v` contains by the description, if the contents of the fields are `scope` (innermost first). Fields belong to
the innermost record; conditions may look at all. -/
def encode (v : Nat) : Fmt → List FRec → List Item
  | .done, _ => []
  | .data t n name next, scope => encodeField t n (field name (scope.headD [])) ++ encode v next scope
  | .when c yes no next, scope => (if c.holds v scope then encode v yes scope else encode v no scope) ++ encode v next scope
  | .rep count body next, scope => (match field count (scope.headD []) with
    | some (.rows l) =>
      -- the count may be a field of an outer record
      if (visible count scope.tail).isNone ∨ FVal.asWord (visible count scope.tail) = BitVec.ofNat 32 l.length
      then l.flatMap fun r => encode v body (r :: scope) else [.bad]
    | _ => [.bad]) ++ encode v next scope
  | .shorts count _ next, scope => (match field count (scope.headD []) with
    | some (.halves l) => if l.isEmpty then [] else [.arr 2 (l.map BitVec.toNat)]
    | _ => [.bad]) ++ encode v next scope
  | .sub body next, scope => encode v body scope ++ encode v next scope

end Spec
