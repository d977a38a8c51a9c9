import Verif.Sio.Span
/-
Specification of views of bytes.
-/
namespace Spec
open Sio

/-- The part of some bytes that a call asks for, or the exception if they are not all there. -/
def partOf (l : List Byte) : SpanCall → Except Err (List Byte)
  | .from start => if start.toNat ≤ l.length then .ok (l.drop start.toNat) else .error .outOfRange
  | .part start count => if start.toNat + count.toNat ≤ l.length then .ok ((l.drop start.toNat).take count.toNat) else .error .outOfRange

/-- The same for calls one after the other. -/
def partsOf : List Byte → List SpanCall → Except Err (List Byte)
  | l, [] => .ok l
  | l, c :: cs => match partOf l c with
    | .error e => .error e
    | .ok l => partsOf l cs

/-- All that can be seen through a view of these bytes. -/
structure ViewOf (s : Span) (l : List Byte) : Prop where
  valid : s.valid = true
  size : s.size.toNat = l.length
  empty : s.empty = true ↔ l = []
  inside : ∀ i : BitVec 64, ∀ h : i.toNat < l.length, s.at i = .ok l[i.toNat] ∧ s.get i = .ok l[i.toNat]
  outside : ∀ i : BitVec 64, l.length ≤ i.toNat → s.at i = .error .outOfRange
  front : ∀ b, l.head? = some b → s.front = .ok b
  back : ∀ b, l.getLast? = some b → s.back = .ok b

/-- The sum of start and number of bytes is a `std::size_t`. -/
def NoWrap : SpanCall → Prop
  | .from _ => True
  | .part start count => start.toNat + count.toNat < 2 ^ 64

/-- The numbers in what is printed. -/
def numbersOf : List DumpItem → List Int
  | [] => []
  | .num v :: rest => v :: numbersOf rest
  | .newline :: rest => numbersOf rest

end Spec
