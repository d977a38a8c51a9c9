import Verif.Lcio.Memory
/-
The objects in the collections of an event: who deletes them.
-/
namespace Lcio
open Sio

/-- `IMPL::LCCollectionVec`, src/cpp/include/IMPL/LCCollectionVec.h: the elements, by their addresses (0 is the null pointer), and the flag word. -/
structure ElemCol where
  elems : List Nat := []
  flag : W32 := 0
  deriving DecidableEq

/-- `isSubset`, src/cpp/src/IMPL/LCCollectionVec.cc:83-85; the bit is in src/cpp/include/pre-generated/EVENT/LCCollection.h:70. -/
def ElemCol.isSubset (c : ElemCol) : Bool := c.flag.getLsbD 18

/-- An event (C46) and the collections of the program, by their addresses. Simplification: all can be changed (C47 is about those that cannot). -/
structure ElemWorld where
  ev : EventObj := {}
  cols : Nat → ElemCol := fun _ => {}

/-- A call for the event or for one of the collections. -/
inductive ElemCall where
  | onEvent (c : EventCall)
  | addElement (col obj : Nat)
  | removeElementAt (col i : Nat)
  | setSubset (col : Nat) (val : Bool)
  | setFlag (col : Nat) (flag : W32)

/-- The collections with one changed. -/
def ElemWorld.change (w : ElemWorld) (col : Nat) (f : ElemCol → ElemCol) : ElemWorld :=
  { w with cols := fun c => if c = col then f (w.cols c) else w.cols c }

/-- One call: LCCollectionVec.cc:87-90 (`setSubset`), 98-100 (`setFlag`), 103-109 (`addElement`), 111-118 (`removeElementAt`; an element that is not there is
undefined behaviour); `takeCollection` also sets the transient bit, src/cpp/src/IMPL/LCEventImpl.cc:97. -/
def ElemWorld.call (w : ElemWorld) : ElemCall → Except Err ElemWorld
  | .onEvent c =>
    match c, w.ev.call c with
    | .take _, (.collection a, ev) => .ok (({ w with ev := ev } : ElemWorld).change a fun x => { x with flag := x.flag ||| 0x10000#32 })
    | _, (_, ev) => .ok { w with ev := ev }
  | .addElement col obj => .ok (w.change col fun x => { x with elems := x.elems ++ [obj] })
  | .removeElementAt col i => if i < (w.cols col).elems.length then .ok (w.change col fun x => { x with elems := x.elems.eraseIdx i }) else .error .ub
  | .setSubset col val => .ok (w.change col fun x => { x with flag := if val then x.flag ||| 0x40000#32 else x.flag &&& ~~~0x40000#32 })
  | .setFlag col flag => .ok (w.change col fun x => { x with flag := flag })

/-- Calls one after the other. -/
def ElemWorld.calls (w : ElemWorld) : List ElemCall → Except Err ElemWorld
  | [] => .ok w
  | c :: cs => (w.call c).bind fun w => w.calls cs

/-- Deletion of objects one after the other; to delete one that does not exist any more is undefined behaviour, to delete a null pointer does nothing. -/
def deleteObjects : List Nat → List Nat → Except Err (List Nat)
  | [], dead => .ok dead
  | x :: xs, dead => if x = 0 then deleteObjects xs dead else if dead.contains x then .error .ub else deleteObjects xs (dead ++ [x])

/-- The destructor of the event: it deletes collections (`EventObj.destroy`, C63), and `LCCollectionVec::~LCCollectionVec`, LCCollectionVec.cc:33-47, deletes the
elements if the collection is not a subset: the objects that are deleted. -/
def ElemWorld.destroy (w : ElemWorld) : Except Err (List Nat) :=
  match w.ev.destroy with
  | .error e => .error e
  | .ok l => deleteObjects (l.flatMap fun c => if (w.cols c).isSubset then [] else (w.cols c).elems) []

end Lcio
