import Verif.Lcio.Setters
/-
Programs that go through a collection and remove some of the elements.
-/
namespace Util
open Sio Lcio

/-- `LCCollectionVec::getElementAt`, src/cpp/src/IMPL/LCCollectionVec.cc:60-62: `operator[]` does not check. -/
def colElementAt (o : ColObj) (i : Nat) : Except Err Nat :=
  match o.elems[i]? with
  | some e => .ok e
  | none => .error .ub

/-- The body of the loops: get an element, and call `removeElementAt` (LCCollectionVec.cc:111-118) if it is selected. Also whether it was. -/
def removeIf (ro : Bool) (sel : Nat → Bool) (o : ColObj) (i : Nat) : Except Err (Bool × ColObj) :=
  match colElementAt o i with
  | .error e => .error e
  | .ok e => if sel e then match o.change ro (.removeElementAt i) with
      | .error e => .error e
      | .ok o => .ok (true, o)
    else .ok (false, o)

/-- `for( int i = n - 1 ; i >= 0 ; --i ) { ... }`: from the end; simplified here and below: indices are natural numbers, there are fewer than 2^31 elements. `n` is `getNumberOfElements()` (LCCollectionVec.cc:49-51) before. -/
def removeDown (ro : Bool) (sel : Nat → Bool) : Nat → ColObj → Except Err ColObj
  | 0, o => .ok o
  | n + 1, o => match removeIf ro sel o n with
    | .error e => .error e
    | .ok (_, o) => removeDown ro sel n o

/-- `for( int i = 0 ; i < col->getNumberOfElements() ; ) { ... }`, where `i` is increased only if the element is kept. The first argument bounds the number of rounds. -/
def removeStay (ro : Bool) (sel : Nat → Bool) : Nat → Nat → ColObj → Except Err ColObj
  | 0, _, _ => .error .diverge
  | n + 1, i, o => if i < o.elems.length then match removeIf ro sel o i with
      | .error e => .error e
      | .ok (removed, o) => removeStay ro sel n (if removed then i else i + 1) o
    else .ok o

/-- `for( int i = 0 ; i < col->getNumberOfElements() ; ++i ) { ... }`. -/
def removeUp (ro : Bool) (sel : Nat → Bool) : Nat → Nat → ColObj → Except Err ColObj
  | 0, _, _ => .error .diverge
  | n + 1, i, o => if i < o.elems.length then match removeIf ro sel o i with
      | .error e => .error e
      | .ok (_, o) => removeUp ro sel n (i + 1) o
    else .ok o

/-- `for( int i = 0 ; i < n ; ++i ) { ... }`, where `n` is `getNumberOfElements()` before the loop. The first argument is how many rounds are left. -/
def removeFixed (ro : Bool) (sel : Nat → Bool) : Nat → Nat → ColObj → Except Err ColObj
  | 0, _, o => .ok o
  | n + 1, i, o => match removeIf ro sel o i with
    | .error e => .error e
    | .ok (_, o) => removeFixed ro sel n (i + 1) o

end Util
