import Verif.Lcio.Headers
/-
Device calls as the object handlers use them.
-/
namespace Lcio
open Sio

/-- `short`. -/
abbrev W16 := BitVec 16

/-- `device.data(x)` for a `bool` (one byte), sio/include/sio/io_device.h:362-364. -/
def wBool (b : Bool) : List Item := [.arr 1 [if b then 1 else 0]]

/-- `write_device::data(const std::vector<short>&)`, io_device.h:369-374. -/
def wVec16 (vs : List W16) : List Item :=
  w32 (BitVec.ofNat 32 vs.length) ++ if vs.isEmpty then [] else [.arr 2 (vs.map BitVec.toNat)]

/-- `read_device::data(std::vector<short>&)`, io_device.h:319-326. -/
def rVec16 (old : List W16) : RProg (List W16) := do
  let len ← r32
  if len.toInt > 0 then .arr 2 len.toNat fun l => .ret (l.map (BitVec.ofNat 16)) else return old

/-- `SIO_PNTR(device, &p)` on writing. -/
def wPtr (a : Nat) : List Item := [.ptr a]
/-- `SIO_PTAG(device, obj)` on writing. -/
def wTag (a : Nat) : List Item := [.tag a]

/-- How often `for(int i=0; i<n; i++)` runs. -/
def loops (n : W32) : Nat := if n.toInt < 0 then 0 else n.toNat

/-- `int n = v.size(); SIO_DATA(device, &n, 1); for(int i=0; i<n; i++) ...v[i]...` -/
def wFor {β : Type} (w : β → List Item) (l : List β) : List Item :=
  w32 (BitVec.ofNat 32 l.length) ++ (l.take (loops (BitVec.ofNat 32 l.length))).flatMap w

/-- `int n = v.size(); SIO_DATA(device, &n, 1); for(unsigned i=0; i<v.size(); i++) ...v[i]...` -/
def wEach {β : Type} (w : β → List Item) (l : List β) : List Item := w32 (BitVec.ofNat 32 l.length) ++ l.flatMap w

/-- `int n; SIO_DATA(device, &n, 1);` followed by `resize(n)`, `reserve(n)` or `new T[n]`, all of which throw a standard exception
for negative `n`. -/
def rCount : RProg Nat := do
  let n ← r32
  if n.toInt < 0 then .throw .lengthError else return n.toNat

/-- `int n; SIO_DATA(device, &n, 1); v.resize(n); for(int i=0; i<n; i++) ...` -/
def rSized {α : Type} (p : RProg α) : RProg (List α) := do
  let n ← rCount
  rRepeat n p

/-- `int n; SIO_DATA(device, &n, 1); for(int i=0; i<n; i++) ...` -/
def rFor {α : Type} (p : RProg α) : RProg (List α) := do
  let n ← r32
  rRepeat (loops n) p

/-- A call made only if `c`. -/
def wIf (c : Bool) (is : List Item) : List Item := if c then is else []
/-- A call made only if `c`; otherwise the variable keeps the value `d`. -/
def rIf {α : Type} (c : Bool) (p : RProg α) (d : α) : RProg α := if c then p else .ret d

/-- `vers >= SIO_VERSION_ENCODE(maj, min)`. -/
def atLeast (v : W32) (maj min : Nat) : Bool := decide ((encodeVersion (BitVec.ofNat 16 maj) (BitVec.ofNat 16 min)).toNat ≤ v.toNat)
/-- `SIO_VERSION_MAJOR(vers)==0 && SIO_VERSION_MINOR(vers)==8`. -/
def isV08 (v : W32) : Bool := decide (majorVersion v = 0) && decide (minorVersion v = 8)

/-- `SIOCollectionHandler::read`, src/cpp/src/SIO/SIOCollectionHandler.cc:58-69: every exception thrown while an object is read becomes
an `io_failure`. (A library exception thrown by the device becomes one too, in `read_blocks`, see `rethrow`.) -/
def _root_.Sio.RProg.asFailure {α : Type} : RProg α → RProg α
  | .ret a => .ret a
  | .throw e => .throw (if e = .ub ∨ e = .diverge then e else .ioFailure)
  | .arr s c k => .arr s c fun l => (k l).asFailure
  | .ptr k => .ptr fun w => (k w).asFailure
  | .tag o k => .tag o k.asFailure
  | .new k => .new fun o => (k o).asFailure

end Lcio
