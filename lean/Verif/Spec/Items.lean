import Verif.Spec.Wire
import Verif.Sio.Device
/-
Specification vocabulary for sequences of device calls: what they look like on the wire.
-/
namespace Spec
open Sio

/-- Bytes of one item; the argument of `ptr` and `tag` is read as the word on the wire. -/
def itemBytes : Item → List Byte
  | .arr s v => wireArray s v
  | .ptr w => bigEndian 4 w
  | .tag w => bigEndian 4 w
  | .bad => []

/-- Bytes of a sequence of items. -/
def bytesOf (is : List Item) : List Byte := is.flatMap itemBytes

/-- Size of an item on the wire. -/
def itemLen (i : Item) : Nat := (itemBytes i).length

/-- An item that the 32-bit padding mask of SIO can handle: an array of less than 4 GiB. -/
def fits : Item → Prop
  | .arr s v => s * v.length + 3 < 2 ^ 32
  | .ptr _ => True
  | .tag _ => True
  | .bad => False

instance (i : Item) : Decidable (fits i) := by
  cases i <;> unfold fits <;> infer_instance

/-- Each item with its offset, counted from `base`. -/
def offsets : Nat → List Item → List (Nat × Item)
  | _, [] => []
  | b, i :: is => (b, i) :: offsets (b + itemLen i) is

/-- A pointer or tag with another word. -/
def setWord (w : Nat) : Item → Item
  | .ptr _ => .ptr w
  | .tag _ => .tag w
  | i => i

/-- The items with the word of each pointer and tag given by its offset. -/
def withWords (σ : Nat → Nat) : Nat → List Item → List Item
  | _, [] => []
  | b, i :: is => setWord (σ b) i :: withWords σ (b + itemLen i) is

/-- Addresses of the objects whose tags occur in the items, in order. -/
def tagsOf (is : List Item) : List Nat := is.filterMap fun | .tag a => some a | _ => none

/-- Pointer values that occur in the items, in order. -/
def ptrsOf (is : List Item) : List Nat := is.filterMap fun | .ptr a => some a | _ => none

end Spec
