import Verif.Spec.Record
/-
Specification vocabulary: a reader whose calls need not have the same array boundaries as those of the writer.
Elements of 4 or 8 bytes are never padded, so that it makes no difference on the wire whether an array of them is written
by one call or element by element. A single byte is padded with zeros and looks like the word whose highest byte it is.
-/
namespace Spec
open Sio

/-- An array of unpadded elements as single elements; a single byte as the word it looks like on the wire, padded with three zero
bytes; everything else is kept. -/
def flatItem : Item → List Item
  | .arr sz v => if sz % 4 = 0 then v.map (fun x => .arr sz [x])
    else match sz, v with
    | 1, [b] => [.arr 4 [b % 256 * 2 ^ 24]]
    | sz, v => [.arr sz v]
  | i => [i]

/-- A sequence of device calls with the arrays of unpadded elements written element by element. -/
def flat (is : List Item) : List Item := is.flatMap flatItem

/-- The next `c` items, if they are single elements of size `sz`. -/
def takeSingles (sz : Nat) : Nat → List Item → Option (List Nat × List Item)
  | 0, is => some ([], is)
  | c+1, .arr sz' [x] :: is => if sz = sz' then (takeSingles sz c is).map (fun r => (x :: r.1, r.2)) else none
  | _+1, _ => none

/-- The next item as a single byte, if it looks like one on the wire. -/
def takeByte : List Item → Option (Nat × List Item)
  | .arr 4 [x] :: is => if x % 2 ^ 24 = 0 ∧ x < 2 ^ 32 then some (x / 2 ^ 24, is) else none
  | _ => none

/-- As `runI`, on flat items: an array of unpadded elements is read from as many single elements, and a single byte from a word. -/
def _root_.Sio.RProg.runF {α : Type} (φ : Nat → Nat) : RProg α → ISt → Option (α × ISt)
  | .ret a, s => some (a, s)
  | .throw _, _ => none
  | .arr sz c k, s =>
    if sz % 4 = 0 then
      match takeSingles sz c s.items with
      | some (v, is) => (k (v.map (· % 256 ^ sz))).runF φ { s with items := is }
      | none => none
    else if sz = 1 ∧ c = 1 then
      match takeByte s.items with
      | some (b, is) => (k [b]).runF φ { s with items := is }
      | none => none
    else match s.items with
    | .arr sz' v :: is =>
      if sz = sz' ∧ c = v.length then (k (v.map (· % 256 ^ sz))).runF φ { s with items := is } else none
    | _ => none
  | .ptr k, s => match s.items with
    | .ptr a :: is => (k (φ a)).runF φ { s with items := is }
    | _ => none
  | .tag o k, s => match s.items with
    | .tag a :: is => k.runF φ { s with items := is, regs := s.regs ++ [(a, o)] }
    | _ => none
  | .new k, s => (k s.next).runF φ { s with next := s.next + 1 }

/-- As `decodeAll`, on flat items. -/
def decodeF {α : Type} (φ : Nat → Nat) (decs : List (RBlock α)) : List WBlock → Nat → Option (Decoded α)
  | [], n => some ⟨[], n, [], []⟩
  | b :: bs, n =>
    match decs.find? (fun d => d.name == b.name) with
    | none => (decodeF φ decs bs n).map fun r =>
        { r with objects := (tagsOf b.items).map (·, none) ++ r.objects }
    | some d => match (d.read b.version).runF φ ⟨flat b.items, n, []⟩ with
      | none => none
      | some (a, s) => (decodeF φ decs bs s.next).map fun r =>
        { results := (b.name, a) :: r.results, next := r.next,
          objects := s.regs.map (fun x => (x.1, some x.2)) ++ (tagsOf s.items).map (·, none) ++ r.objects,
          slots := ptrsOf ((flat b.items).take ((flat b.items).length - s.items.length)) ++ r.slots }

end Spec
