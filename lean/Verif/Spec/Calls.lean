import Verif.Sio.Record
/-
Specification vocabulary: sequences of device calls with seeks, traces of read programs, identifiers.
-/
namespace Spec
open Sio

/-- A call of a user of a write device: one of the writing calls, or a seek (which may throw). -/
inductive Call where
  | item (i : Item)
  | seek (pos : Nat)

/-- Perform calls one after the other; a seek that throws leaves the device as it was. Also returned: the
ranges (start, length) by which each writing call advanced `position()`. -/
def perform (d : WDev) : List Call → Except Err (WDev × List (Nat × Nat))
  | [] => .ok (d, [])
  | .seek p :: cs => match d.seek p with
    | .ok d' => perform d' cs
    | .error _ => perform d cs
  | .item i :: cs => match d.step i with
    | .error e => .error e
    | .ok d' => match perform d' cs with
      | .error e => .error e
      | .ok (d'', rs) => .ok (d'', (d.cur, d'.cur - d.cur) :: rs)

/-- What a read program asks of pointer handling: it fills a pointer slot with a match word, or registers
an object under a match word. -/
inductive RefEvent where
  | slot (word : Nat)
  | obj (word obj : Nat)
  deriving DecidableEq, Repr

/-- The 32-bit big-endian word at an offset. -/
def wordAt (buf : List Byte) (off : Nat) : Nat :=
  ((buf.drop off).take 4).foldl (fun n b => n * 256 + b.toNat) 0

/-- The pointer calls made by a read program, in order, with the words found in the buffer. -/
def refEvents {α : Type} : RProg α → RDev → List RefEvent
  | .ret _, _ => []
  | .throw _, _ => []
  | .arr s c k, d => match d.data s c with
    | .error _ => []
    | .ok (vs, d') => refEvents (k vs) d'
  | .ptr k, d =>
    let w := wordAt d.buf d.cur
    .slot w :: refEvents (k w) { d with cur := d.cur + 4 }
  | .tag o k, d => .obj (wordAt d.buf d.cur) o :: refEvents k { d with cur := d.cur + 4 }
  | .new k, d => refEvents (k d.next) { d with next := d.next + 1 }

/-- Match words of the slots, in order. -/
def slotWords (es : List RefEvent) : List Nat := es.filterMap fun | .slot w => some w | _ => none

/-- The object that a match word refers to: the first one registered under it; 0 (null) if there is none,
for the word 0, and for 0xffffffff, which marks objects nobody refers to. -/
def resolve (es : List RefEvent) (w : Nat) : Nat :=
  if w = 0 ∨ w = 0xffffffff then 0
  else (es.findSome? fun | .obj w' o => if w' = w then some o else none | _ => none).getD 0

/-- C identifiers: a letter or underscore followed by letters, digits and underscores. -/
def identStart (c : Byte) : Prop := (c.toNat ∈ List.range' 65 26) ∨ (c.toNat ∈ List.range' 97 26) ∨ c.toNat = 95
def identChar (c : Byte) : Prop := identStart c ∨ c.toNat ∈ List.range' 48 10
def isIdentifier (s : List Byte) : Prop := ∃ c cs, s = c :: cs ∧ identStart c ∧ ∀ x ∈ cs, identChar x

end Spec
