import Verif.Sio.Stream
/-
`sio::buffer_span`: views of bytes that belong to a buffer (sio/include/sio/buffer.h:27-190, sio/src/buffer.cc:11-152).
-/
namespace Sio

/-- `buffer_span`, sio/include/sio/buffer.h:183-189: two iterators of a byte array and a flag. An iterator is the number of the byte at which it points; `mem` is the array the iterators belong
to, which is kept alive by the owner (the view does not own it). -/
structure Span where
  mem : List Byte
  first : Int
  last : Int
  null : Bool
  deriving DecidableEq, Repr

/-- `buffer_span::buffer_span()`, sio/src/buffer.cc:11-14. -/
def Span.none : Span := ⟨[], 0, 0, true⟩

/-- `buffer::span()`, sio/src/buffer.cc:373-375, and the constructor from a byte array, sio/src/buffer.cc:18-22. -/
def Span.whole (mem : List Byte) : Span := ⟨mem, 0, mem.length, false⟩

/-- `std::next(it, n)` of a vector iterator as it is used in sio/src/buffer.cc:119, 130: the `std::size_t` is converted to the signed difference type; an iterator outside the array is undefined. -/
def nextIter (mem : List Byte) (it : Int) (n : BitVec 64) : Except Err Int :=
  if 0 ≤ it + n.toInt ∧ it + n.toInt ≤ mem.length then .ok (it + n.toInt) else .error .ub

/-- `buffer_span::size`, sio/src/buffer.cc:93-95: the distance is converted to `std::size_t`. -/
def Span.size (s : Span) : BitVec 64 := if s.null then 0 else BitVec.ofInt 64 (s.last - s.first)

/-- `buffer_span::empty`, sio/src/buffer.cc:99-101. -/
def Span.empty (s : Span) : Bool := s.size == 0

/-- `buffer_span::valid`, sio/src/buffer.cc:105-107. -/
def Span.valid (s : Span) : Bool := !s.null

/-- The byte at an iterator; outside the array this is undefined. -/
def Span.deref (s : Span) (it : Int) : Except Err Byte :=
  if 0 ≤ it then match s.mem[it.toNat]? with
    | some b => .ok b
    | Option.none => .error .ub
  else .error .ub

/-- `buffer_span::front`, sio/src/buffer.cc:58-60. -/
def Span.front (s : Span) : Except Err Byte := s.deref s.first

/-- `buffer_span::back`, sio/src/buffer.cc:64-66. -/
def Span.back (s : Span) : Except Err Byte := s.deref (s.last - 1)

/-- `buffer_span::operator[]`, sio/src/buffer.cc:70-72, with `data`, :52-54. -/
def Span.get (s : Span) (i : BitVec 64) : Except Err Byte := if s.null then .error .ub else s.deref (s.first + i.toNat)

/-- `buffer_span::at`, sio/src/buffer.cc:76-83. -/
def Span.at (s : Span) (i : BitVec 64) : Except Err Byte := if s.size ≤ i then .error .outOfRange else s.get i

/-- `buffer_span::subspan(start)`, sio/src/buffer.cc:117-124, and `buffer::span(start)`, :375-382. -/
def Span.from (s : Span) (start : BitVec 64) : Except Err Span :=
  if start > s.size then .error .outOfRange
  else match nextIter s.mem s.first start with
    | .error e => .error e
    | .ok first => .ok ⟨s.mem, first, s.last, false⟩

/-- `buffer_span::subspan(start, count)`, sio/src/buffer.cc:128-135, and `buffer::span(start, count)`, :386-393: the sum is one of `std::size_t`. -/
def Span.part (s : Span) (start count : BitVec 64) : Except Err Span :=
  if start + count > s.size then .error .outOfRange
  else match nextIter s.mem s.first start with
    | .error e => .error e
    | .ok first => match nextIter s.mem s.first (start + count) with
      | .error e => .error e
      | .ok last => .ok ⟨s.mem, first, last, false⟩

/-- The calls that make a view of a part. -/
inductive SpanCall where
  | from (start : BitVec 64)
  | part (start count : BitVec 64)

/-- Calls one after the other, each on the view that the previous one returned. -/
def Span.calls : Span → List SpanCall → Except Err Span
  | s, [] => .ok s
  | s, .from a :: cs => match s.from a with
    | .error e => .error e
    | .ok s => s.calls cs
  | s, .part a n :: cs => match s.part a n with
    | .error e => .error e
    | .ok s => s.calls cs

/-- What `dump` writes: a number (`(int)` of the `char`) with a space, or the end of a line. -/
inductive DumpItem where
  | num (v : Int)
  | newline
  deriving DecidableEq, Repr

/-- The loop of `buffer_span::dump`, sio/src/buffer.cc:141-149, from the byte with number `i`; the first argument is the number of bytes that are left. `%` by zero is undefined. The base of the
numbers is not modelled. -/
def Span.dumpLoop (s : Span) (split : BitVec 32) (maxBytes : BitVec 64) : Nat → BitVec 64 → Except Err (List DumpItem)
  | 0, _ => .ok []
  | n + 1, i => match s.at i with
    | .error e => .error e
    | .ok b =>
      if i ≠ 0 ∧ split = 0 then .error .ub
      else
        let out := .num b.toBitVec.toInt :: (if i ≠ 0 ∧ i.toNat % split.toNat = 0 then [.newline] else [])
        if i > maxBytes then .ok out
        else match s.dumpLoop split maxBytes n (i + 1) with
          | .error e => .error e
          | .ok rest => .ok (out ++ rest)

/-- `buffer_span::dump`, sio/src/buffer.cc:139-152. -/
def Span.dump (s : Span) (split : BitVec 32) (maxBytes : BitVec 64) : Except Err (List DumpItem) :=
  match s.dumpLoop split maxBytes s.size.toNat 0 with
  | .error e => .error e
  | .ok out => .ok (out ++ [.newline])

end Sio
