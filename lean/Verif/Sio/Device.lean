import Verif.Sio.Basic
/-
SIO write and read devices, pointer tables and pointer relocation.
-/
namespace Sio

/-! ## std::map and std::multimap with pointer keys -/

/-- `pointed_at_map::insert` (`std::map<void*,void*>`, definitions.h:102): keeps the entries sorted by
key; an existing entry with the same key wins. -/
def mapInsert (k v : Nat) : List (Nat × Nat) → List (Nat × Nat)
  | [] => [(k, v)]
  | (k', v') :: m =>
    if k < k' then (k, v) :: (k', v') :: m
    else if k = k' then (k', v') :: m
    else (k', v') :: mapInsert k v m

/-- `pointer_to_map::insert` (`std::multimap<void*,void*>`, definitions.h:103): inserts after all entries
whose key is not greater. -/
def multiInsert (k v : Nat) : List (Nat × Nat) → List (Nat × Nat)
  | [] => [(k, v)]
  | (k', v') :: m => if k < k' then (k, v) :: (k', v') :: m else (k', v') :: multiInsert k v m

/-- `pointed_at.find(k)` as used in sio/src/api.cc:30 and 54. -/
def mapFind (k : Nat) (m : List (Nat × Nat)) : Option Nat := (m.find? (fun e => e.1 == k)).map (·.2)

/-! ## Write device -/

/-- One call on a write device as made by the code that serialises an object:
`arr size vals` is `device.data(ptr, count)` with `sizeof_helper<T>::size = size` (io_device.h:379-381;
`device.data(x)` is the case of one element, 362-364), `ptr a` is `pointer_to` with pointer value `a`
(io_device.cc:118-141), `tag a` is `pointed_at` with object address `a` (io_device.cc:145-154), and
`bad` is a call with undefined behaviour. -/
inductive Item where
  | arr (size : Nat) (vals : List Nat)
  | ptr (a : Nat)
  | tag (a : Nat)
  | bad
  deriving DecidableEq, Repr

/-- `sio::write_device` (io_device.h:266-275). The buffer is taken to be valid (not moved from). -/
structure WDev where
  buf : List Byte
  cur : Nat := 0
  pointedAt : List (Nat × Nat) := []
  pointerTo : List (Nat × Nat) := []
  deriving Repr, DecidableEq

/-- `write_device::data(ptr, count)`, io_device.h:379-381. -/
def WDev.data (d : WDev) (size : Nat) (vals : List Nat) : Except Err WDev :=
  match apiWrite d.buf size vals d.cur with
  | .error e => .error e
  | .ok (b, n) => .ok { d with buf := b, cur := d.cur + n }

/-- `write_device::seek`, io_device.cc:109-114. -/
def WDev.seek (d : WDev) (pos : Nat) : Except Err WDev :=
  if pos > d.buf.length then .error .outOfRange else .ok { d with cur := pos }

/-- One device call: `data`, `pointer_to` (io_device.cc:118-141: non-null pointers are registered with the
current offset, and a zero word is written) or `pointed_at` (io_device.cc:145-154: the address is
registered unless it is already there, and 0xffffffff is written). -/
def WDev.step (d : WDev) : Item → Except Err WDev
  | .arr size vals => d.data size vals
  | .ptr a => WDev.data (if a = 0 then d else { d with pointerTo := multiInsert a d.cur d.pointerTo }) 4 [0]
  | .tag a => WDev.data { d with pointedAt := mapInsert a d.cur d.pointedAt } 4 [0xffffffff]
  | .bad => .error .ub

/-- A sequence of device calls. -/
def WDev.run (d : WDev) : List Item → Except Err WDev
  | [] => .ok d
  | i :: is => match d.step i with
    | .error e => .error e
    | .ok d' => d'.run is

/-- `sio::memcpy::write(&match, rec_start + offset, 1)` in sio/src/api.cc:57 and 60. There is no bounds
check in the code: outside the buffer it is undefined behaviour. -/
def patchWord (buf : List Byte) (off w : Nat) : Except Err (List Byte) :=
  if off + 4 > buf.length then .error .ub else .ok (reverseCopy (memImage 4 [w]) 0 buf off 4 1)

/-- The inner loop sio/src/api.cc:58-61: write the match word at every offset of the group. -/
def patchGroup (w : Nat) : List (Nat × Nat) → List Byte → Except Err (List Byte)
  | [], buf => .ok buf
  | e :: g, buf => match patchWord buf e.2 w with
    | .error er => .error er
    | .ok b => patchGroup w g b

/-- The outer loop of `api::write_relocation`, sio/src/api.cc:50-65. `ptol` is the remaining part of the
multimap, `takeWhile`/`dropWhile (key ≤ k)` are the group up to and the part from `upper_bound(k)`.
The match counter is a 32-bit unsigned. The first argument bounds the number of iterations
(`Err.diverge` if exceeded; never happens with the bound used below, see `writeReloc_total`). -/
def writeRelocLoop (pointedAt : List (Nat × Nat)) : Nat → Nat → List (Nat × Nat) → List Byte → Except Err (List Byte)
  | _, _, [], buf => .ok buf
  | 0, _, _ :: _, _ => .error .diverge
  | fuel+1, m, e :: es, buf =>
    let group := (e :: es).takeWhile (fun x => x.1 ≤ e.1)
    let ptoh := (e :: es).dropWhile (fun x => x.1 ≤ e.1)
    match mapFind e.1 pointedAt with
    | none => writeRelocLoop pointedAt fuel ((m + 1) % 2 ^ 32) ptoh buf
    | some off =>
      match patchWord buf off m with
      | .error er => .error er
      | .ok b => match patchGroup m group b with
        | .error er => .error er
        | .ok b' => writeRelocLoop pointedAt fuel ((m + 1) % 2 ^ 32) ptoh b'

/-- `write_device::pointer_relocation`, io_device.cc:158-162. -/
def WDev.relocate (d : WDev) : Except Err WDev :=
  match writeRelocLoop d.pointedAt d.pointerTo.length 1 d.pointerTo d.buf with
  | .error e => .error e
  | .ok b => .ok { d with buf := b, pointedAt := [], pointerTo := [] }

/-! ## Read device -/

/-- `sio::read_device` (io_device.h:135-144). `mem` models the pointer variables registered so far, in the
order of the `pointer_to` calls: a pointer variable is named by its index, and `mem` holds its content.
`next` is the identity of the next object that will be created: objects are named 1, 2, 3, ... in order
of creation (0 is the null pointer). -/
structure RDev where
  buf : List Byte
  cur : Nat := 0
  pointedAt : List (Nat × Nat) := []
  pointerTo : List (Nat × Nat) := []
  mem : List Nat := []
  next : Nat := 1
  deriving Repr, DecidableEq

/-- A program that reads from a device: what a `read(device, ...)` method does, call by call.
`arr size count` is `device.data(ptr, count)`; `ptr` is `pointer_to` (the continuation gets the raw match
word that the pointer variable holds until relocation, io_device.cc:54); `tag o` is `pointed_at` for
object `o`; `new` creates an object. -/
inductive RProg (α : Type) where
  | ret (a : α)
  | throw (e : Err)
  | arr (size count : Nat) (k : List Nat → RProg α)
  | ptr (k : Nat → RProg α)
  | tag (self : Nat) (k : RProg α)
  | new (k : Nat → RProg α)

/-- Sequencing of read programs (the C++ semicolon). -/
def RProg.bind {α β : Type} : RProg α → (α → RProg β) → RProg β
  | .ret a, f => f a
  | .throw e, _ => .throw e
  | .arr s c k, f => .arr s c fun l => (k l).bind f
  | .ptr k, f => .ptr fun w => (k w).bind f
  | .tag o k, f => .tag o (k.bind f)
  | .new k, f => .new fun o => (k o).bind f

instance : Monad RProg where
  pure := .ret
  bind := .bind

/-- `read_device::data(ptr, count)`, io_device.h:331-333. -/
def RDev.data (d : RDev) (size count : Nat) : Except Err (List Nat × RDev) :=
  match apiRead d.buf size d.cur count with
  | .error e => .error e
  | .ok (vs, n) => .ok (vs, { d with cur := d.cur + n })

/-- `read_device::seek`, io_device.cc:32-37. -/
def RDev.seek (d : RDev) (pos : Nat) : Except Err RDev :=
  if pos > d.buf.length then .error .outOfRange else .ok { d with cur := pos }

/-- Execution of a read program on a device. `ptr`: io_device.cc:41-55, `tag`: io_device.cc:59-71. -/
def RProg.run {α : Type} : RProg α → RDev → Except Err (α × RDev)
  | .ret a, d => .ok (a, d)
  | .throw e, _ => .error e
  | .arr s c k, d => match d.data s c with
    | .error e => .error e
    | .ok (vs, d') => (k vs).run d'
  | .ptr k, d => match d.data 4 1 with
    | .error e => .error e
    | .ok (vs, d') =>
      let m := vs.headD 0
      let d'' := if m = 0 then d' else { d' with pointerTo := multiInsert m d'.mem.length d'.pointerTo }
      (k m).run { d'' with mem := d''.mem ++ [m] }
  | .tag o k, d => match d.data 4 1 with
    | .error e => .error e
    | .ok (vs, d') =>
      let m := vs.headD 0
      k.run (if m = 0xffffffff then d' else { d' with pointedAt := mapInsert m o d'.pointedAt })
  | .new k, d => (k d.next).run { d with next := d.next + 1 }

/-- Inner loop of `api::read_relocation`, sio/src/api.cc:33-36. -/
def relocGroup (target : Nat) : List (Nat × Nat) → List Nat → List Nat
  | [], mem => mem
  | e :: g, mem => relocGroup target g (mem.set e.2 target)

/-- `api::read_relocation`, sio/src/api.cc:20-39 (iteration bound as in `writeRelocLoop`). -/
def readRelocLoop (pointedAt : List (Nat × Nat)) : Nat → List (Nat × Nat) → List Nat → Except Err (List Nat)
  | _, [], mem => .ok mem
  | 0, _ :: _, _ => .error .diverge
  | fuel+1, e :: es, mem =>
    let group := (e :: es).takeWhile (fun x => x.1 ≤ e.1)
    let ptoh := (e :: es).dropWhile (fun x => x.1 ≤ e.1)
    readRelocLoop pointedAt fuel ptoh (relocGroup ((mapFind e.1 pointedAt).getD 0) group mem)

/-- `read_device::pointer_relocation`, io_device.cc:75-79. -/
def RDev.relocate (d : RDev) : Except Err RDev :=
  match readRelocLoop d.pointedAt d.pointerTo.length d.pointerTo d.mem with
  | .error e => .error e
  | .ok m => .ok { d with mem := m, pointedAt := [], pointerTo := [] }

/-! ## Typed access used by the object handlers -/

/-- `int`/`unsigned int`, and `float` as its bit pattern. -/
abbrev W32 := BitVec 32
/-- `long long`, and `double` as its bit pattern. -/
abbrev W64 := BitVec 64

/-- `device.data(x)` for a 4-byte `x`, io_device.h:362-364. -/
def w32 (v : W32) : List Item := [.arr 4 [v.toNat]]
/-- `device.data(x)` for an 8-byte `x`, io_device.h:362-364. -/
def w64 (v : W64) : List Item := [.arr 8 [v.toNat]]
/-- `device.data(ptr, count)` for 4-byte elements, io_device.h:379-381. -/
def w32s (vs : List W32) : List Item := [.arr 4 (vs.map BitVec.toNat)]
/-- `device.data(ptr, count)` for 8-byte elements, io_device.h:379-381. -/
def w64s (vs : List W64) : List Item := [.arr 8 (vs.map BitVec.toNat)]
/-- `device.data(ptr, count)` for bytes, io_device.h:379-381. -/
def w8s (s : List Byte) : List Item := [.arr 1 (s.map UInt8.toNat)]

/-- `write_device::data(const std::string&)`, io_device.h:340-344. The length is narrowed to `int` and then
used as element count; from 2^31 on the count is not the length any more and the copy leaves the string. -/
def wStr (s : List Byte) : List Item :=
  if s.length < 2 ^ 31 then w32 (BitVec.ofNat 32 s.length) ++ w8s s else [.bad]

/-- `write_device::data(const std::vector<T>&)` for 4-byte elements, io_device.h:369-374. -/
def wVec32 (vs : List W32) : List Item :=
  w32 (BitVec.ofNat 32 vs.length) ++ if vs.isEmpty then [] else w32s vs
/-- `write_device::data(const std::vector<T>&)` for 8-byte elements, io_device.h:369-374. -/
def wVec64 (vs : List W64) : List Item :=
  w32 (BitVec.ofNat 32 vs.length) ++ if vs.isEmpty then [] else w64s vs
/-- `write_device::data(const std::vector<std::string>&)`, io_device.h:350-357. -/
def wVecStr (ss : List (List Byte)) : List Item :=
  w32 (BitVec.ofNat 32 ss.length) ++ ss.flatMap wStr

/-- `device.data(x)` for a 4-byte `x`, io_device.h:312-314. -/
def r32 : RProg W32 := .arr 4 1 fun l => .ret (BitVec.ofNat 32 (l.headD 0))
/-- `device.data(x)` for an 8-byte `x`, io_device.h:312-314. -/
def r64 : RProg W64 := .arr 8 1 fun l => .ret (BitVec.ofNat 64 (l.headD 0))
/-- `device.data(ptr, count)` for 4-byte elements, io_device.h:331-333. -/
def r32s (n : Nat) : RProg (List W32) := .arr 4 n fun l => .ret (l.map (BitVec.ofNat 32))
/-- `device.data(ptr, count)` for 8-byte elements, io_device.h:331-333. -/
def r64s (n : Nat) : RProg (List W64) := .arr 8 n fun l => .ret (l.map (BitVec.ofNat 64))
/-- `device.data(ptr, count)` for bytes, io_device.h:331-333. -/
def r8s (n : Nat) : RProg (List Byte) := .arr 1 n fun l => .ret (l.map UInt8.ofNat)
/-- `device.pointer_to(&p)`; the result is the raw match word. -/
def rPtr : RProg Nat := .ptr .ret
/-- `device.pointed_at(obj)`. -/
def rTag (o : Nat) : RProg Unit := .tag o (.ret ())
/-- `new T`. -/
def rNew : RProg Nat := .new .ret

/-- `read_device::data(std::string&)`, io_device.h:287-292. A negative length makes `resize` throw
`std::length_error`. -/
def rStr : RProg (List Byte) := do
  let len ← r32
  if len.toInt < 0 then .throw .lengthError else r8s len.toNat

/-- `n` repetitions of a read program, collecting the results: a counted `for` loop. -/
def rRepeat {α : Type} : Nat → RProg α → RProg (List α)
  | 0, _ => .ret []
  | n+1, p => do
    let a ← p
    let as ← rRepeat n p
    return a :: as

/-- `read_device::data(std::vector<T>&)` for 4-byte elements, io_device.h:319-326. `old` is what the vector
contained before; it is kept when the stored length is not positive. -/
def rVec32 (old : List W32) : RProg (List W32) := do
  let len ← r32
  if len.toInt > 0 then r32s len.toNat else return old
/-- `read_device::data(std::vector<T>&)` for 8-byte elements, io_device.h:319-326. -/
def rVec64 (old : List W64) : RProg (List W64) := do
  let len ← r32
  if len.toInt > 0 then r64s len.toNat else return old
/-- `read_device::data(std::vector<std::string>&)`, io_device.h:298-307. -/
def rVecStr (old : List (List Byte)) : RProg (List (List Byte)) := do
  let len ← r32
  if len.toInt > 0 then rRepeat len.toNat rStr else return old

end Sio
