import Verif.Sio.Device
/-
Flag words.
-/
namespace Util
open Sio

/-- `1 << bit` for an `int`: undefined if the bit number is negative or 32 or more. Bit 31 is the sign bit (C++14: the value is converted to `int`, which
gcc and clang define as modulo 2^32). -/
def oneShl (bit : Int) : Except Err W32 := if bit < 0 ∨ 32 ≤ bit then .error .ub else .ok ((1 : W32) <<< bit.toNat)

/-- `LCFlagImpl::bitSet`, src/cpp/src/IMPL/LCFlagImpl.cc:13. -/
def flagBitSet (flag : W32) (bit : Int) : Except Err Bool := do
  let m ← oneShl bit
  return (flag &&& m) != 0

/-- `LCFlagImpl::setBit`, LCFlagImpl.cc:18-25. -/
def flagSetBit (flag : W32) (bit : Int) : Except Err W32 :=
  if 0 ≤ bit ∧ bit ≤ 31 then do
    let b ← flagBitSet flag bit
    if !b then do
      let m ← oneShl bit
      return flag ||| m
    else return flag
  else .ok flag

/-- `LCFlagImpl::unsetBit`, LCFlagImpl.cc:28-35. -/
def flagUnsetBit (flag : W32) (bit : Int) : Except Err W32 :=
  if 0 ≤ bit ∧ bit ≤ 31 then do
    let b ← flagBitSet flag bit
    if b then do
      let m ← oneShl bit
      return flag &&& ~~~m
    else return flag
  else .ok flag

/-- `std::bitset<32>` as a word. `test`, `set`, `reset` throw `std::out_of_range` for other positions; the position is a `size_t`, so that a negative `int`
becomes a large number. -/
def bitsetPos (bit : Int) : Except Err Nat := if bit < 0 ∨ 32 ≤ bit then .error .outOfRange else .ok bit.toNat

/-- `BitSet32(val).test(bit)`, src/cpp/include/UTIL/BitSet32.h:31-46 and `std::bitset`. -/
def bitset32Test (val : W32) (bit : Int) : Except Err Bool := do
  let p ← bitsetPos bit
  return val.getLsbD p

/-- `set_bit`, BitSet32.h:83-87. -/
def set_bit (flag : W32) (bit : Int) : Except Err W32 := do
  let p ← bitsetPos bit
  return flag ||| ((1 : W32) <<< p)

/-- `unset_bit`, BitSet32.h:92-96: `set(bit, 0)`. -/
def unset_bit (flag : W32) (bit : Int) : Except Err W32 := do
  let p ← bitsetPos bit
  return flag &&& ~~~((1 : W32) <<< p)

/-- `make_bitset32` with one to five bits, BitSet32.h:50-78. -/
def make_bitset32 : List Int → Except Err W32
  | [] => .ok 0
  | b :: bs => do
    let m ← oneShl b
    let r ← make_bitset32 bs
    return m ||| r

end Util
