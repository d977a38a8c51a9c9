import Verif.Lcio.Headers
import Verif.Spec.Record
/-
Specification vocabulary for storing objects: what can be stored, and storing followed by loading.
-/
namespace Spec
open Sio Lcio

/-- Write blocks as a record, read the record's data back with some decoders: the results of the decoders with the names of the
blocks. -/
def storeLoad {α : Type} (name buf : Str) (opts : W32) (bs : List WBlock) (decs : List (RBlock α)) (next : Nat) : Except Err (List (Str × α)) :=
  match writeRecord name buf bs opts with
  | .error e => .error e
  | .ok (info, bytes) => match readBlocks (bytes.drop info.headerLength) decs next with
    | .error e => .error e
    | .ok (results, _, _) => .ok results

/-- A map that can be stored: in order, and numbers of entries and values, and lengths of keys below 2^31. -/
structure MapOk {α : Type} (ok : α → Prop) (m : VecMap α) : Prop where
  ordered : Ordered strLt m
  count : m.length < 2 ^ 31
  key : ∀ e ∈ m, e.1.length < 2 ^ 31
  vals : ∀ e ∈ m, e.2.length < 2 ^ 31
  ok : ∀ e ∈ m, ∀ v ∈ e.2, ok v

/-- Parameters that can be stored. -/
structure ParamsOk (p : Params) : Prop where
  ints : MapOk (fun _ => True) p.ints
  floats : MapOk (fun _ => True) p.floats
  strs : MapOk (fun s => s.length < 2 ^ 31) p.strs

/-- A run header that can be stored. -/
structure RunHeaderOk (h : RunHeader) : Prop where
  det : h.det.length < 2 ^ 31
  descr : h.descr.length < 2 ^ 31
  count : h.subdets.length < 2 ^ 31
  subdets : ∀ s ∈ h.subdets, s.length < 2 ^ 31
  params : ParamsOk h.params

/-- `pat` occurs somewhere in `s`. -/
def occursIn (pat s : Str) : Prop := ∃ a b, s = a ++ pat ++ b

/-- An event header that can be stored: collections in order of their names, which are valid, and lengths below 2^31. -/
structure EventHeaderOk (e : EventHeader) : Prop where
  det : e.det.length < 2 ^ 31
  count : e.cols.length < 2 ^ 31
  ordered : Ordered strLt e.cols
  names : ∀ c ∈ e.cols, validate c.1 = true ∧ c.1.length < 2 ^ 31
  types : ∀ c ∈ e.cols, c.2.type.length + 11 < 2 ^ 31
  params : ParamsOk e.params

/-- The collections of an event that should be stored: not transient, and wanted. -/
def stored (only : List Str) (e : EventHeader) : List (Str × ColHead) :=
  e.cols.filter fun c => !c.2.flag.getLsbD 16 && (only.isEmpty || only.contains c.1)

/-- An index entry as it comes back from an index written for a map whose first entry has run number `run0` and position `pos0`. -/
def indexEntry (oneRun longOffset : Bool) (run0 : W32) (pos0 : W64) (e : RunEvent × W64) : RunEvent × W64 :=
  (⟨if oneRun then run0 else e.1.run, e.1.evt⟩,
   if longOffset then e.2 else pos0 + ((e.2 - pos0).setWidth 32).signExtend 64)

end Spec
