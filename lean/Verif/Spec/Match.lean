import Verif.Spec.Items
/-
Specification vocabulary: a reader whose calls match those of the writer.
-/
namespace Sio
open Spec

/-- State of an abstract execution on items: remaining items, identity of the next new object, and the
tags met so far as (address when written, object read). -/
structure ISt where
  items : List Item
  next : Nat
  regs : List (Nat × Nat)

/-- A read program making calls that match, one by one, the calls that wrote the items: arrays of the same
element size and count, pointers where pointers were written, tags where tags were written. Undefined (`none`)
when a call does not match. `φ` gives the word that
stands for a pointer value. -/
def RProg.runI {α : Type} (φ : Nat → Nat) : RProg α → ISt → Option (α × ISt)
  | .ret a, s => some (a, s)
  | .throw _, _ => none
  | .arr sz c k, s => match s.items with
    | .arr sz' v :: is =>
      if sz = sz' ∧ c = v.length then (k (v.map (· % 256 ^ sz))).runI φ { s with items := is } else none
    | _ => none
  | .ptr k, s => match s.items with
    | .ptr a :: is => (k (φ a)).runI φ { s with items := is }
    | _ => none
  | .tag o k, s => match s.items with
    | .tag a :: is => k.runI φ { s with items := is, regs := s.regs ++ [(a, o)] }
    | _ => none
  | .new k, s => (k s.next).runI φ { s with next := s.next + 1 }

end Sio
