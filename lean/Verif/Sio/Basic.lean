/-
Bytes, outcomes and the raw byte copies of SIO.
-/
namespace Sio

/-- `sio::byte` (sio/include/sio/definitions.h:95). The C++ type is `char`; only its eight bits matter. -/
abbrev Byte := UInt8

/-- Outcomes other than normal return: the error codes of sio/include/sio/exception.h:16-29,
the `std::length_error` thrown by `std::string::resize`, the exceptions of LCIO (src/cpp/include/Exceptions.h: `Exception`, `EventException`,
`DataNotAvailableException`, `ReadOnlyException`, `IOException`, `EndOfDataException`), and two outcomes that are not C++ values:
`ub` (undefined behaviour, e.g. an access outside a buffer) and `diverge` (a loop that does not end). -/
inductive Err where
  | notOpen | badState | eof | ioFailure | invalidArgument | outOfRange | noMarker | compressError
  | alreadyOpen | openFail
  | lengthError
  | lcException | eventException | notAvailable | readOnly | ioException | endOfData
  | ub
  | diverge
  deriving DecidableEq, Repr

deriving instance DecidableEq for Except

/-- The bytes of an ASCII string literal. -/
def str (s : String) : List Byte := s.toList.map fun c => UInt8.ofNat c.toNat

/-- The `n` low-order bytes of `v` in the order a little-endian host keeps them in memory.
Platform model for `reinterpret_cast<const sio::byte*>` in sio/include/sio/memcpy.h:107-117. -/
def leBytes : Nat → Nat → List Byte
  | 0, _ => []
  | n+1, v => UInt8.ofNat (v % 256) :: leBytes n (v / 256)

/-- The number a little-endian host reads from these bytes (same source as `leBytes`). -/
def ofLE : List Byte → Nat
  | [] => 0
  | b :: bs => b.toNat + 256 * ofLE bs

/-- Memory image of an array of `size`-byte elements (platform model, see `leBytes`). -/
def memImage (size : Nat) (vals : List Nat) : List Byte := vals.flatMap (leBytes size)

/-- The `count` elements of `size` bytes found in a memory image (platform model, see `leBytes`). -/
def ofImage (size : Nat) : Nat → List Byte → List Nat
  | 0, _ => []
  | c+1, bs => ofLE (bs.take size) :: ofImage size c (bs.drop size)

/-- `memcpy::reverse_copy`, sio/src/memcpy.cc:6-12: the two nested loops, with the source and
destination pointers given as offsets `so` and `d0` into a source and a destination area. The callers
(`apiRead`, `apiWrite`) check that all accesses are inside both areas before calling. -/
def reverseCopy (src : List Byte) (so : Nat) (dst : List Byte) (d0 : Nat) (size count : Nat) : List Byte :=
  (List.range size).foldl (fun d s =>
    (List.range count).foldl (fun d c =>
      d.set (d0 + ((size - 1) - s + c * size)) (src.getD (so + (s + c * size)) 0)) d) dst

/-- `n` zero bytes: the value-initialised tail that `std::vector::resize` creates
(sio/src/buffer.cc:330-332). -/
def zeros (n : Nat) : List Byte := List.replicate n 0

/-- `_bytes.resize(n)`, sio/src/buffer.cc:330-332. -/
def resize (buf : List Byte) (n : Nat) : List Byte := buf.take n ++ zeros (n - buf.length)

/-- `(bytelen + sio::padding) & sio::padding_mask`, sio/include/sio/api.h:370 and 390. The mask is the
32-bit constant 0xfffffffc (definitions.h:125), zero-extended to 64 bits. The sum is assumed not to
overflow 64 bits. -/
def padLen (bytelen : Nat) : Nat := (bytelen + 3) &&& 0xfffffffc

/-- `api::read`, sio/include/sio/api.h:365-380, for elements of `size` bytes. Returns the elements and
the number of bytes consumed. The bounds check is the code's own; the copy that follows touches
`size*count` bytes, and is undefined behaviour when these are not all in the buffer. -/
def apiRead (buf : List Byte) (size pos count : Nat) : Except Err (List Nat × Nat) :=
  let bytelen := size * count
  let padlen := padLen bytelen
  if pos + padlen > buf.length then .error .invalidArgument
  else if pos + bytelen > buf.length then .error .ub
  else .ok (ofImage size count (reverseCopy buf pos (zeros bytelen) 0 size count), padlen)

/-- `api::write`, sio/include/sio/api.h:385-402: grow the buffer if `position + padlen >= size`, copy,
then zero the padding bytes one by one. -/
def apiWrite (buf : List Byte) (size : Nat) (vals : List Nat) (pos : Nat) : Except Err (List Byte × Nat) :=
  let count := vals.length
  let bytelen := size * count
  let padlen := padLen bytelen
  let buf := if pos + padlen ≥ buf.length then resize buf (buf.length + max buf.length padlen) else buf
  if pos + bytelen > buf.length ∨ pos + padlen > buf.length then .error .ub
  else
    let b1 := reverseCopy (memImage size vals) 0 buf pos size count
    let b2 := (List.range' bytelen (padlen - bytelen)).foldl (fun d i => d.set (pos + i) 0) b1
    .ok (b2, padlen)

end Sio
