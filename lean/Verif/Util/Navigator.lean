import Verif.Lcio.Objects
/-
`UTIL::LCRelationNavigator`, src/cpp/src/UTIL/LCRelationNavigator.cc. Objects are given by their addresses.
-/
namespace Util
open Sio Lcio

/-- The order of addresses, `std::less` for pointers. -/
def addrLt (a b : Nat) : Bool := a < b

/-- `RelMap`, LCRelationNavigator.h:25: for every object a vector of objects and a vector of weights. -/
abbrev RelMap := List (Nat × (List Nat × List W32))

/-- `map[ k ]`: a new entry has empty vectors. -/
def RelMap.at (m : RelMap) (k : Nat) : List Nat × List W32 := (omFind addrLt k m).getD ([], [])

/-- The two vectors in the protected `addRelation`, LCRelationNavigator.cc:86-98. `vWgt[i]` is modelled as no change if there is no such element; the two
vectors always have the same size. -/
def vecAdd (add : W32 → W32 → W32) (vTo : List Nat) (vWgt : List W32) (b : Nat) (weight : W32) : List Nat × List W32 :=
  match vTo.findIdx? (· == b) with
  | some i => (vTo, vWgt.modify i (add · weight))
  | none => (vTo ++ [b], vWgt ++ [weight])

/-- The protected `addRelation`, LCRelationNavigator.cc:78-99. -/
def RelMap.add (add : W32 → W32 → W32) (m : RelMap) (a b : Nat) (weight : W32) : RelMap :=
  (omAssign addrLt a (vecAdd add (m.at a).1 (m.at a).2 b weight) m).1

/-- The protected `removeRelation`, LCRelationNavigator.cc:110-140. -/
def RelMap.remove (m : RelMap) (a b : Nat) : RelMap :=
  match omFind addrLt a m with
  | none => m
  | some (vTo, vWgt) =>
    match vTo.findIdx? (· == b) with
    | none => m
    | some i =>
      let vTo := vTo.eraseIdx i
      let vWgt := vWgt.eraseIdx i
      if vTo = [] then omErase addrLt a m else (omAssign addrLt a (vTo, vWgt) m).1

/-- `LCRelationNavigator`, LCRelationNavigator.h:94-98. -/
structure Navigator where
  fromType : Str := []
  toType : Str := []
  map : RelMap := []
  rMap : RelMap := []
  deriving DecidableEq

/-- `addRelation`, LCRelationNavigator.cc:71-76. The addition of `float`s is a parameter. -/
def Navigator.addRelation (add : W32 → W32 → W32) (n : Navigator) (a b : Nat) (weight : W32) : Navigator :=
  { n with map := n.map.add add a b weight, rMap := n.rMap.add add b a weight }

/-- `removeRelation`, LCRelationNavigator.cc:103-106. -/
def Navigator.removeRelation (n : Navigator) (a b : Nat) : Navigator :=
  { n with map := n.map.remove a b, rMap := n.rMap.remove b a }

/-- What `createLCCollection` makes: the parameters, the relations and the flag word. -/
structure RelCollection where
  params : Params := {}
  flag : W32 := 0
  elements : List Relation := []
  deriving DecidableEq

/-- `createLCCollection`, LCRelationNavigator.cc:142-176. `vWgt[i] != 1.0f` compares the bits: there is only one representation of 1. -/
def Navigator.createLCCollection (n : Navigator) : RelCollection :=
  let elements := n.map.flatMap fun e => (e.2.1.zip e.2.2).map fun x => ({ from_ := e.1, to := x.1, weight := x.2 } : Relation)
  let storeWeights := elements.any fun r => r.weight != 0x3f800000#32
  { params := { strs := assignVal (assignVal [] (str "FromType") n.fromType) (str "ToType") n.toType },
    flag := if storeWeights then 0x80000000 else 0,
    elements := elements }

/-- The constructor from a collection, LCRelationNavigator.cc:19-43, for one of type `LCRelation`. -/
def Navigator.ofCollection (add : W32 → W32 → W32) (c : RelCollection) : Except Err Navigator := do
  let f ← getVal [] c.params.strs (str "FromType")
  let t ← getVal [] c.params.strs (str "ToType")
  return c.elements.foldl (fun n r => n.addRelation add r.from_ r.to r.weight) { fromType := f, toType := t }

/-- Calls on a navigator. -/
inductive NavCall where
  | add (a b : Nat) (weight : W32)
  | remove (a b : Nat)
  | toObjects (a : Nat)
  | toWeights (a : Nat)
  | fromObjects (b : Nat)
  | fromWeights (b : Nat)
  | create
  deriving DecidableEq

/-- Results of calls. -/
inductive NavAnswer where
  | done
  | objects (l : List Nat)
  | weights (l : List W32)
  | collection (c : RelCollection)
  deriving DecidableEq

/-- One call. The getters, LCRelationNavigator.cc:49-69, use `operator[]` on the maps and so make an empty entry if there is none. -/
def Navigator.call (add : W32 → W32 → W32) (n : Navigator) : NavCall → NavAnswer × Navigator
  | .add a b w => (.done, n.addRelation add a b w)
  | .remove a b => (.done, n.removeRelation a b)
  | .toObjects a => (.objects (n.map.at a).1, { n with map := omInsert addrLt a ([], []) n.map })
  | .toWeights a => (.weights (n.map.at a).2, { n with map := omInsert addrLt a ([], []) n.map })
  | .fromObjects b => (.objects (n.rMap.at b).1, { n with rMap := omInsert addrLt b ([], []) n.rMap })
  | .fromWeights b => (.weights (n.rMap.at b).2, { n with rMap := omInsert addrLt b ([], []) n.rMap })
  | .create => (.collection n.createLCCollection, n)

/-- A sequence of calls: the answers and the navigator afterwards. -/
def Navigator.calls (add : W32 → W32 → W32) (n : Navigator) : List NavCall → List NavAnswer × Navigator
  | [] => ([], n)
  | c :: cs => (let (x, n) := n.call add c; let (xs, n) := n.calls add cs; (x :: xs, n))

end Util
