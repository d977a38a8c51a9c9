import Verif.Lcio.Memory
/-
Iterators and typed vectors of collections, src/cpp/include/UTIL/LCIterator.h and LCTypedVector.h. Objects are of any type `α` with a dynamic type; `isT o` says that
`dynamic_cast<T*>( o )` succeeds. A collection (`LCCollectionVec`) is the list of its pointers, `none` is null.
-/
namespace Util
open Sio Lcio

/-- `getNumberOfElements`, src/cpp/src/IMPL/LCCollectionVec.cc:49-51: a `size_t` becomes an `int`. -/
def numElements {α : Type} (col : List (Option α)) : Int := (BitVec.ofNat 32 col.length).toInt

/-- `getElementAt`, LCCollectionVec.cc:60-62: `operator[]` does not check. -/
def elementAt {α : Type} (col : List (Option α)) (i : Int) : Except Err (Option α) :=
  if i < 0 then .error .ub else
  match col[i.toNat]? with
  | none => .error .ub
  | some p => .ok p

/-- `dynamic_cast<T*>`. -/
def dynCast {α : Type} (isT : α → Bool) : Option α → Option α
  | none => none
  | some o => if isT o then some o else none

/-- `(T*) p` for an `LCObject* p`: undefined for an object that is no `T`. -/
def staticCast {α : Type} (isT : α → Bool) : Option α → Except Err (Option α)
  | none => .ok none
  | some o => if isT o then .ok (some o) else .error .ub

/-- The numbers in an `LCIterator`, LCIterator.h:118-121. -/
structure Iter where
  n : Int := 0
  i : Int := 0
  deriving DecidableEq

/-- The constructor, LCIterator.h:76-93, for a collection or (`none`) a null pointer. -/
def iterNew {α : Type} (isT : α → Bool) (col : Option (List (Option α))) : Except Err Iter :=
  match col with
  | none => .ok { n := 0 }
  | some col =>
    let n := numElements col
    if n > 0 then
      match elementAt col 0 with
      | .error e => .error e
      | .ok p => match dynCast isT p with
        | none => .error .lcException
        | some _ => .ok { n }
    else .ok { n }

/-- The constructor for a name, LCIterator.h:45-73: a collection that is not there is a null pointer. -/
def iterNewNamed {α : Type} (isT : α → Bool) (cols : List (Str × List (Option α))) (name : Str) : Except Err Iter := iterNew isT (omFind strLt name cols)

/-- `next`, LCIterator.h:96-103, with the collection as it is then. -/
def Iter.next {α : Type} (isT : α → Bool) (it : Iter) (col : List (Option α)) : Except Err (Option α × Iter) :=
  if it.i < it.n then
    match elementAt col it.i with
    | .error e => .error e
    | .ok p => match staticCast isT p with
      | .error e => .error e
      | .ok r => .ok (r, { it with i := it.i + 1 })
  else .ok (none, it)

/-- Calls of `next`, each with the collection as it is then. -/
def Iter.nexts {α : Type} (isT : α → Bool) (it : Iter) : List (List (Option α)) → Except Err (List (Option α))
  | [] => .ok []
  | c :: cs =>
    match it.next isT c with
    | .error e => .error e
    | .ok (r, it) => match Iter.nexts isT it cs with
      | .error e => .error e
      | .ok rs => .ok (r :: rs)

/-- The loop `while( T* t = it.next() )`, LCIterator.h:20-25: the objects for which its body runs. -/
def Iter.loop {α : Type} (isT : α → Bool) (col : List (Option α)) : Nat → Iter → Except Err (List α)
  | 0, _ => .error .diverge
  | fuel + 1, it =>
    match it.next isT col with
    | .error e => .error e
    | .ok (none, _) => .ok []
    | .ok (some o, it) => match Iter.loop isT col fuel it with
      | .error e => .error e
      | .ok os => .ok (o :: os)

/-- The loop of the constructor of `LCTypedVector`, LCTypedVector.h:40-53, from element `i` on. -/
def typedLoop {α : Type} (isT : α → Bool) (col : List (Option α)) : Nat → Nat → Except Err (List (Option α))
  | 0, _ => .ok []
  | k + 1, i =>
    match elementAt col i with
    | .error e => .error e
    | .ok p =>
      let t := dynCast isT p
      if i = 0 ∧ t.isNone then .error .lcException
      else match typedLoop isT col k (i + 1) with
        | .error e => .error e
        | .ok ts => .ok (t :: ts)

/-- The constructor of `LCTypedVector`, LCTypedVector.h:36-54. `resize` with a negative number throws `std::length_error`. -/
def typedVector {α : Type} (isT : α → Bool) (col : List (Option α)) : Except Err (List (Option α)) :=
  if numElements col < 0 then .error .lengthError
  else typedLoop isT col (numElements col).toNat 0

end Util
