import Verif.Sio.Basic
/-
Relations at run time, src/cpp/include/LCRTRelations.h. Objects are given by their addresses; 0 is the null pointer. A relation `R` adds two slots to
objects: `ptr<R::to>` to the objects it starts from and `ptr<R::from>` to those it leads to. A slot that was never used is made on first use
(LCRTRelations.h:532-554), with a null pointer or an empty list.
-/
namespace Lcio
open Sio

/-- Assignment to the slot of an object. -/
def setSlot {α : Type} (m : Nat → α) (k : Nat) (v : α) : Nat → α := fun x => if x = k then v else m x

/-! ## One to one -/

/-- The slots of a `LC1To1Relation`, LCRTRelations.h:238-243. -/
structure OneRel where
  to : Nat → Nat := fun _ => 0
  from_ : Nat → Nat := fun _ => 0

/-- `unset_relation`, LCRTRelations.h:565-577. -/
def OneRel.unset (s : OneRel) (f : Nat) : OneRel :=
  if f ≠ 0 then
    let t := s.to f
    let s := if t ≠ 0 then { s with from_ := setSlot s.from_ t 0 } else s
    { s with to := setSlot s.to f 0 }
  else s

/-- `set_relation`, LCRTRelations.h:579-588. Both pointers are dereferenced. -/
def OneRel.set (s : OneRel) (f t : Nat) : Except Err OneRel :=
  if f = 0 ∨ t = 0 then .error .ub
  else
    let s := s.unset f
    let s := s.unset (s.from_ t)
    .ok { to := setSlot s.to f t, from_ := setSlot s.from_ t f }

/-- Calls. -/
inductive OneCall where
  | set (f t : Nat)
  | unset (f : Nat)
  deriving DecidableEq

/-- One call. -/
def OneRel.call (s : OneRel) : OneCall → Except Err OneRel
  | .set f t => s.set f t
  | .unset f => .ok (s.unset f)

/-- A sequence of calls. -/
def OneRel.calls (s : OneRel) : List OneCall → Except Err OneRel
  | [] => .ok s
  | c :: cs => do (← s.call c).calls cs

/-! ## Lists -/

/-- The lists are in the order of the addresses, as `std::list::merge` requires. -/
def inAddrOrder (l : List Nat) : Bool := l.Pairwise (· ≤ ·)

/-- The loop of `std::list::merge`: the element of the second list is taken if it is less, otherwise that of the first. `n` bounds the number of steps. -/
def mergeLoop : Nat → List Nat → List Nat → List Nat
  | n + 1, x :: a, y :: b => if y < x then y :: mergeLoop n (x :: a) b else x :: mergeLoop n a (y :: b)
  | _, a, b => a ++ b

/-- `a.merge( b )` of two different lists; both have to be sorted, otherwise the behaviour is undefined. -/
def listMerge (a b : List Nat) : Except Err (List Nat) :=
  if inAddrOrder a && inAddrOrder b then .ok (mergeLoop (a.length + b.length) a b) else .error .ub

/-- Calls for relations with lists. -/
inductive ListCall where
  | add (f t : Nat)
  | remove (f t : Nat)
  | removeAll (f : Nat)
  | merge (f1 f2 : Nat)
  deriving DecidableEq

/-! ## Many to many -/

/-- The slots of a `LCNToNRelation`, LCRTRelations.h:253-257. -/
structure ManyRel where
  to : Nat → List Nat := fun _ => []
  from_ : Nat → List Nat := fun _ => []

/-- `add_relation`, LCRTRelations.h:593-601. -/
def ManyRel.add (s : ManyRel) (f t : Nat) : ManyRel :=
  { to := setSlot s.to f (s.to f ++ [t]), from_ := setSlot s.from_ t (s.from_ t ++ [f]) }

/-- `remove_relation`, LCRTRelations.h:606-613. `std::list::remove` removes all equal elements. -/
def ManyRel.remove (s : ManyRel) (f t : Nat) : ManyRel :=
  { to := setSlot s.to f ((s.to f).filter (· ≠ t)), from_ := setSlot s.from_ t ((s.from_ t).filter (· ≠ f)) }

/-- `remove_relations`, LCRTRelations.h:616-627. -/
def ManyRel.removeAll (s : ManyRel) (f : Nat) : ManyRel :=
  { to := setSlot s.to f [], from_ := (s.to f).foldl (fun m t => setSlot m t ((m t).filter (· ≠ f))) s.from_ }

/-- `merge_relations`, LCRTRelations.h:629-642. Merging a list with itself does nothing. -/
def ManyRel.merge (s : ManyRel) (f1 f2 : Nat) : Except Err ManyRel := do
  let fr := (s.to f2).foldl (fun m t => setSlot m t ((m t).filter (· ≠ f2) ++ [f1])) s.from_
  if f1 = f2 then return { s with from_ := fr }
  else
    let l ← listMerge (s.to f1) (s.to f2)
    return { to := setSlot (setSlot s.to f1 l) f2 [], from_ := fr }

/-- One call; null pointers are dereferenced. -/
def ManyRel.call (s : ManyRel) : ListCall → Except Err ManyRel
  | .add f t => if f = 0 ∨ t = 0 then .error .ub else .ok (s.add f t)
  | .remove f t => if f = 0 ∨ t = 0 then .error .ub else .ok (s.remove f t)
  | .removeAll f => if f = 0 then .error .ub else .ok (s.removeAll f)
  | .merge f1 f2 => if f1 = 0 ∨ f2 = 0 then .error .ub else s.merge f1 f2

/-- A sequence of calls. -/
def ManyRel.calls (s : ManyRel) : List ListCall → Except Err ManyRel
  | [] => .ok s
  | c :: cs => do (← s.call c).calls cs

/-! ## One to many -/

/-- The slots of a `LC1ToNRelation`, LCRTRelations.h:246-250. -/
structure FanRel where
  to : Nat → List Nat := fun _ => []
  from_ : Nat → Nat := fun _ => 0

/-- `add_relation`, LCRTRelations.h:593-601, with `objorcont<false>::add`, 170-171: an assignment. -/
def FanRel.add (s : FanRel) (f t : Nat) : FanRel :=
  { to := setSlot s.to f (s.to f ++ [t]), from_ := setSlot s.from_ t f }

/-- `remove_relation`, LCRTRelations.h:606-613, with `objorcont<false>::remove`, 173-174: the pointer is set to null, whatever it was. -/
def FanRel.remove (s : FanRel) (f t : Nat) : FanRel :=
  { to := setSlot s.to f ((s.to f).filter (· ≠ t)), from_ := setSlot s.from_ t 0 }

/-- `remove_relations`, LCRTRelations.h:616-627. -/
def FanRel.removeAll (s : FanRel) (f : Nat) : FanRel :=
  { to := setSlot s.to f [], from_ := (s.to f).foldl (fun m t => setSlot m t 0) s.from_ }

/-- `merge_relations`, LCRTRelations.h:629-642. -/
def FanRel.merge (s : FanRel) (f1 f2 : Nat) : Except Err FanRel := do
  let fr := (s.to f2).foldl (fun m t => setSlot (setSlot m t 0) t f1) s.from_
  if f1 = f2 then return { s with from_ := fr }
  else
    let l ← listMerge (s.to f1) (s.to f2)
    return { to := setSlot (setSlot s.to f1 l) f2 [], from_ := fr }

/-- One call; null pointers are dereferenced. -/
def FanRel.call (s : FanRel) : ListCall → Except Err FanRel
  | .add f t => if f = 0 ∨ t = 0 then .error .ub else .ok (s.add f t)
  | .remove f t => if f = 0 ∨ t = 0 then .error .ub else .ok (s.remove f t)
  | .removeAll f => if f = 0 then .error .ub else .ok (s.removeAll f)
  | .merge f1 f2 => if f1 = 0 ∨ f2 = 0 then .error .ub else s.merge f1 f2

/-- A sequence of calls. -/
def FanRel.calls (s : FanRel) : List ListCall → Except Err FanRel
  | [] => .ok s
  | c :: cs => do (← s.call c).calls cs

end Lcio
