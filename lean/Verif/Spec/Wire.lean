import Verif.Sio.Basic
/-
Independent specification of the wire format: what an array looks like on disk.
-/
namespace Spec
open Sio

/-- Big-endian bytes: byte `i` (from the left) of an `n`-byte number `v` is digit `n-1-i` of `v` in base 256. -/
def bigEndian (n v : Nat) : List Byte :=
  (List.range n).map fun i => UInt8.ofNat (v / 256 ^ (n - 1 - i) % 256)

/-- Smallest number of zero bytes that brings a length to a multiple of four. -/
def padding (len : Nat) : Nat := (4 - len % 4) % 4

/-- An array on the wire: its elements in order, big-endian, then zero padding. -/
def wireArray (size : Nat) (vals : List Nat) : List Byte :=
  vals.flatMap (bigEndian size) ++ List.replicate (padding (size * vals.length)) 0

end Spec
