import Verif.Sio.Device
import Verif.Util.BitField
/-
The XDR files of the StdHep reader, src/cpp/src/UTIL/lXDR.cc, on a little-endian host where `long` has 64 bits (`_hasNetworkOrder` is false).
The file is its bytes and the position of the stream. Not modelled: files that cannot be opened or written, and allocations that fail.
-/
namespace Util
open Sio

/-- The members, lXDR.hh:122-128, with the file behind `_fp` (closed: `isOpen = false`). -/
structure LXdr where
  file : List Byte := []
  pos : Nat := 0
  isOpen : Bool := true
  forWrite : Bool := false
  err : Nat := 0
  deriving DecidableEq

/-- `LXDR_READONLY`, `LXDR_WRITEONLY`, `LXDR_NOFILE`, `LXDR_READERROR`, `LXDR_WRITEERROR`, lXDR.hh:139-146. -/
def lxReadOnly : Nat := 2
def lxWriteOnly : Nat := 3
def lxNoFile : Nat := 4
def lxReadError : Nat := 5
def lxWriteError : Nat := 6

/-- `fread( p, size, count, _fp )`: the bytes that are there, and the number of complete elements that is returned. -/
def LXdr.fread (x : LXdr) (size count : Nat) : List Byte × Nat × LXdr :=
  let bs := (x.file.drop x.pos).take (size * count)
  (bs, bs.length / size, { x with pos := x.pos + bs.length })

/-- `fwrite( p, size, count, _fp )` for `size * count` bytes: returns the number of elements. -/
def LXdr.fwrite (x : LXdr) (bs : List Byte) (count : Nat) : Nat × LXdr :=
  (count, { x with file := x.file.take x.pos ++ zeros (x.pos - x.file.length) ++ bs ++ x.file.drop (x.pos + bs.length), pos := x.pos + bs.length })

/-- `htonl` and `ntohl` on a little-endian host. -/
def bswap32 (n : Nat) : Nat := ofLE (leBytes 4 n).reverse

/-- The loop in `lXDR::ntohd`, lXDR.cc:85-105, on the eight bytes of a double: bytes `i` and `7 - i` are exchanged. -/
def ntohdBytes (b : List Byte) : List Byte :=
  (List.range 4).foldl (fun b i => (b.set i (b.getD (7 - i) 0)).set (7 - i) (b.getD i 0)) b

/-- `lXDR::ntohd`. -/
def ntohd (d : Nat) : Nat := ofLE (ntohdBytes (leBytes 8 d))

/-- `lXDR::checkRead( long* )`, lXDR.cc:107-122. -/
def LXdr.checkReadLong (x : LXdr) : Nat × Int × LXdr :=
  if x.forWrite then (lxReadOnly, 0, { x with err := lxReadOnly })
  else if !x.isOpen then (lxNoFile, 0, { x with err := lxNoFile })
  else
    let (bs, n, x) := x.fread 4 1
    if n ≠ 1 then (lxReadError, 0, { x with err := lxReadError })
    else (0, toInt32 (bswap32 (ofLE bs)), x)

/-- `lXDR::checkRead( double* )`, lXDR.cc:124-133. A failed read may leave a part of the bytes in the variable; the result is not used then. -/
def LXdr.checkReadDouble (x : LXdr) : Nat × W64 × LXdr :=
  if x.forWrite then (lxReadOnly, 0, { x with err := lxReadOnly })
  else if !x.isOpen then (lxNoFile, 0, { x with err := lxNoFile })
  else
    let (bs, n, x) := x.fread 8 1
    if n ≠ 1 then (lxReadError, 0, { x with err := lxReadError })
    else (0, BitVec.ofNat 64 (ntohd (ofLE bs)), x)

/-- `lXDR::readLong`, lXDR.cc:150-155. -/
def LXdr.readLong (x : LXdr) : Int × LXdr := (x.checkReadLong.2.1, x.checkReadLong.2.2)

/-- `lXDR::readDouble`, lXDR.cc:157-162. -/
def LXdr.readDouble (x : LXdr) : W64 × LXdr := (x.checkReadDouble.2.1, x.checkReadDouble.2.2)

/-- `lXDR::readFloat`, lXDR.cc:135-148 and 164-169: the bits of the float before it is widened. -/
def LXdr.readFloat (x : LXdr) : W32 × LXdr :=
  if x.forWrite then (0, { x with err := lxReadOnly })
  else if !x.isOpen then (0, { x with err := lxNoFile })
  else
    let (bs, n, x) := x.fread 4 1
    if n ≠ 1 then (0, { x with err := lxReadError })
    else (BitVec.ofNat 32 (bswap32 (ofLE bs)), x)

/-- `(length + 3) & 0xFFFFFFFC` on a 64-bit `long`, lXDR.cc:174. -/
def roundLength (length : Int) : Nat := (BitVec.ofInt 64 (length + 3)).toNat &&& 0xfffffffc

/-- `lXDR::readString`, lXDR.cc:171-184: the bytes with the padding (the returned array ends with an additional 0), the length, the reader. -/
def LXdr.readString (x : LXdr) : Option (List Byte) × Int × LXdr :=
  let (e, length, x) := x.checkReadLong
  if e ≠ 0 then (none, length, x)
  else
    let rl := roundLength length
    let (bs, n, x) := x.fread 1 rl
    if n ≠ rl then (none, length, { x with err := lxReadError })
    else (some bs, length, { x with err := 0 })

/-- `lXDR::readLongArray`, lXDR.cc:186-217. A negative length makes `new[]` throw. -/
def LXdr.readLongArray (x : LXdr) : Except Err (Option (List Int) × Int × LXdr) :=
  let (e, length, x) := x.checkReadLong
  if e ≠ 0 then .ok (none, length, x)
  else if length < 0 then .error .lengthError
  else
    let (bs, n, x) := x.fread 4 length.toNat
    if n ≠ length.toNat then .ok (none, length, { x with err := lxReadError })
    else .ok (some ((ofImage 4 length.toNat bs).map fun b => toInt32 (bswap32 b)), length, { x with err := 0 })

/-- `lXDR::readDoubleArray`, lXDR.cc:219-231. -/
def LXdr.readDoubleArray (x : LXdr) : Except Err (Option (List W64) × Int × LXdr) :=
  let (e, length, x) := x.checkReadLong
  if e ≠ 0 then .ok (none, length, x)
  else if length < 0 then .error .lengthError
  else
    let (bs, n, x) := x.fread 8 length.toNat
    if n ≠ length.toNat then .ok (none, length, { x with err := lxReadError })
    else .ok (some ((ofImage 8 length.toNat bs).map fun b => BitVec.ofNat 64 (ntohd b)), length, { x with err := 0 })

/-- `lXDR::readFloatArray`, lXDR.cc:233-260: the bytes are read into the first half of an array of `long`s, and `st[i]` is the low half of its element `i`;
`none` is an element that was never set. The bits of the floats before they are widened. -/
def LXdr.readFloatArray (x : LXdr) : Except Err (Option (List (Option W32)) × Int × LXdr) :=
  let (e, length, x) := x.checkReadLong
  if e ≠ 0 then .ok (none, length, x)
  else if length < 0 then .error .lengthError
  else
    let (bs, n, x) := x.fread 4 length.toNat
    if n ≠ length.toNat then .ok (none, length, { x with err := lxReadError })
    else .ok (some ((List.range length.toNat).map fun i =>
      if 8 * i + 4 ≤ bs.length then some (BitVec.ofNat 32 (bswap32 (ofLE ((bs.drop (8 * i)).take 4)))) else none), length, { x with err := 0 })

/-- `lXDR::checkWrite( long* )`, lXDR.cc:262-272: `htonl` takes the low 32 bits, and the first four bytes of the result are written. `fwrite` returns the
number of elements. -/
def LXdr.checkWriteLong (x : LXdr) (l : Int) : Nat × LXdr :=
  if !x.forWrite then (lxWriteOnly, { x with err := lxWriteOnly })
  else if !x.isOpen then (lxNoFile, { x with err := lxNoFile })
  else
    let ll := bswap32 (BitVec.ofInt 32 l).toNat
    let (n, x) := x.fwrite ((leBytes 8 ll).take 4) 1
    if n ≠ 4 then (lxWriteError, { x with err := lxWriteError }) else (0, x)

/-- `lXDR::checkWrite( double* )`, lXDR.cc:274-283. -/
def LXdr.checkWriteDouble (x : LXdr) (d : W64) : Nat × LXdr :=
  if !x.forWrite then (lxWriteOnly, { x with err := lxWriteOnly })
  else if !x.isOpen then (lxNoFile, { x with err := lxNoFile })
  else
    let (n, x) := x.fwrite (leBytes 8 (ntohd d.toNat)) 1
    if n ≠ 8 then (lxWriteError, { x with err := lxWriteError }) else (0, x)

/-- `lXDR::writeLong`, lXDR.cc:285-288. -/
def LXdr.writeLong (x : LXdr) (l : Int) : Nat × LXdr := x.checkWriteLong l

/-- `lXDR::writeDouble`, lXDR.cc:290-293. -/
def LXdr.writeDouble (x : LXdr) (d : W64) : Nat × LXdr := x.checkWriteDouble d

/-- `lXDR::writeString( data , length )`, lXDR.cc:300-307: the padding is taken from the bytes of the number of padding bytes. -/
def LXdr.writeString (x : LXdr) (data : List Byte) : Nat × LXdr :=
  let length := data.length
  let (e, x) := x.checkWriteLong length
  if e ≠ 0 then (x.err, x)
  else
    let (n, x) := x.fwrite data length
    if n ≠ length then (lxWriteError, { x with err := lxWriteError })
    else
      let l := roundLength length - length
      let (n, x) := x.fwrite ((leBytes 8 l).take l) l
      if n ≠ l then (lxWriteError, { x with err := lxWriteError }) else (0, { x with err := 0 })

/-- `lXDR::writeLongArray`, lXDR.cc:309-322: the array `s` of `long`s with swapped elements, of which the first `4 * length` bytes are written. -/
def LXdr.writeLongArray (x : LXdr) (data : List Int) : Nat × LXdr :=
  let length := data.length
  let (e, x) := x.checkWriteLong length
  if e ≠ 0 then (x.err, x)
  else
    let s := memImage 8 (data.map fun l => bswap32 (BitVec.ofInt 32 l).toNat)
    let (n, x) := x.fwrite (s.take (4 * length)) length
    if n ≠ length then (lxWriteError, { x with err := lxWriteError }) else (0, { x with err := 0 })

/-- `lXDR::writeDoubleArray`, lXDR.cc:324-336. -/
def LXdr.writeDoubleArray (x : LXdr) (data : List W64) : Nat × LXdr :=
  let length := data.length
  let (e, x) := x.checkWriteLong length
  if e ≠ 0 then (x.err, x)
  else
    let (n, x) := x.fwrite (memImage 8 (data.map fun d => ntohd d.toNat)) length
    if n ≠ length then (lxWriteError, { x with err := lxWriteError }) else (0, { x with err := 0 })

/-- `lXDR::filePosition( pos )`, lXDR.cc:339-351, for a position ≥ 0. -/
def LXdr.seek (x : LXdr) (pos : Nat) : LXdr := if !x.isOpen then { x with err := lxNoFile } else { x with pos }

end Util
