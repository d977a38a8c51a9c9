import Verif.Spec.Wire
import Verif.Sio.Device
/-
The XDR format (RFC 4506): integers of four bytes and doubles of eight, most significant byte first; strings and arrays are preceded by their length;
strings are filled up to a multiple of four bytes.
-/
namespace Spec
open Sio

/-- Values of an XDR file. -/
inductive XdrValue where
  | long (n : Int)
  | double (d : W64)

/-- A number that fits into 32 bits with sign. -/
def IsInt32 (n : Int) : Prop := -2 ^ 31 ≤ n ∧ n < 2 ^ 31

/-- An integer in an XDR file: two's complement. -/
def xdrLong (n : Int) : List Byte := bigEndian 4 (n % 2 ^ 32).toNat

def xdrDouble (d : W64) : List Byte := bigEndian 8 d.toNat

def XdrValue.bytes : XdrValue → List Byte
  | .long n => xdrLong n
  | .double d => xdrDouble d

def XdrValue.Ok : XdrValue → Prop
  | .long n => IsInt32 n
  | .double _ => True

/-- A string with its length and padding. -/
def xdrString (s : List Byte) : List Byte := xdrLong s.length ++ s ++ List.replicate (padding s.length) 0

/-- An array with its length. -/
def xdrArray {α : Type} (bytes : α → List Byte) (l : List α) : List Byte := xdrLong l.length ++ l.flatMap bytes

end Spec
