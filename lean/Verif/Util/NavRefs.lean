import Verif.Util.Navigator
/-
What `UTIL::LCRelationNavigator` hands out, src/cpp/src/UTIL/LCRelationNavigator.cc: the getters return references to the vectors in the nodes of its maps,
and the Fortran functions in src/cpp/src/CPPFORT/lcrnv.cc return the addresses of these vectors. Here the nodes of the maps are modelled.
-/
namespace Util
open Sio Lcio

/-- A `RelMap`, LCRelationNavigator.h:25, with the nodes that were allocated for it: `index` gives the node of every object, `nodes` the vectors in the nodes,
`none` if the node was deleted. Simplification: the memory of deleted nodes is not used again. -/
structure NodeMap where
  index : List (Nat × Nat) := []
  nodes : List (Option (List Nat × List W32)) := []
  deriving DecidableEq

/-- `map[ k ]`: the node, a new one with empty vectors if there is none. -/
def NodeMap.locate (m : NodeMap) (k : Nat) : Nat × NodeMap :=
  match omFind addrLt k m.index with
  | some p => (p, m)
  | none => (m.nodes.length, { index := (omAssign addrLt k m.nodes.length m.index).1, nodes := m.nodes ++ [some ([], [])] })

/-- The use of a reference to the vectors of a node: undefined if the node was deleted. -/
def NodeMap.read (m : NodeMap) (p : Nat) : Except Err (List Nat × List W32) :=
  match m.nodes[p]? with
  | some (some v) => .ok v
  | _ => .error .ub

/-- The protected `addRelation`, LCRelationNavigator.cc:78-99. -/
def NodeMap.add (add : W32 → W32 → W32) (m : NodeMap) (a b : Nat) (weight : W32) : NodeMap :=
  let (p, m) := m.locate a
  match m.nodes[p]? with
  | some (some (vTo, vWgt)) => { m with nodes := m.nodes.set p (some (vecAdd add vTo vWgt b weight)) }
  | _ => m

/-- The protected `removeRelation`, LCRelationNavigator.cc:110-140. The node is deleted with its last relation. -/
def NodeMap.remove (m : NodeMap) (a b : Nat) : NodeMap :=
  match omFind addrLt a m.index with
  | none => m
  | some p =>
    match m.nodes[p]? with
    | some (some (vTo, vWgt)) =>
      match vTo.findIdx? (· == b) with
      | none => m
      | some i =>
        if vTo.eraseIdx i = [] then { index := omErase addrLt a m.index, nodes := m.nodes.set p none }
        else { m with nodes := m.nodes.set p (some (vTo.eraseIdx i, vWgt.eraseIdx i)) }
    | _ => m

/-- An `LCRelationNavigator`, LCRelationNavigator.h:94-98, without the names of the types. -/
structure RefNavigator where
  map : NodeMap := {}
  rMap : NodeMap := {}
  deriving DecidableEq

/-- A reference to one of the vectors of a navigator: the map, the vector and the node. -/
structure NavRef where
  reverse : Bool
  weights : Bool
  node : Nat
  deriving DecidableEq

/-- One call: the reference that is returned, if any. The getters, LCRelationNavigator.cc:49-69, and lcrnv.cc:45-71. -/
def RefNavigator.call (add : W32 → W32 → W32) (n : RefNavigator) : NavCall → Option NavRef × RefNavigator
  | .add a b w => (none, { map := n.map.add add a b w, rMap := n.rMap.add add b a w })
  | .remove a b => (none, { map := n.map.remove a b, rMap := n.rMap.remove b a })
  | .toObjects a => (some ⟨false, false, (n.map.locate a).1⟩, { n with map := (n.map.locate a).2 })
  | .toWeights a => (some ⟨false, true, (n.map.locate a).1⟩, { n with map := (n.map.locate a).2 })
  | .fromObjects b => (some ⟨true, false, (n.rMap.locate b).1⟩, { n with rMap := (n.rMap.locate b).2 })
  | .fromWeights b => (some ⟨true, true, (n.rMap.locate b).1⟩, { n with rMap := (n.rMap.locate b).2 })
  | .create => (none, n)

/-- Calls one after the other. -/
def RefNavigator.calls (add : W32 → W32 → W32) (n : RefNavigator) (cs : List NavCall) : RefNavigator := cs.foldl (fun n c => (n.call add c).2) n

/-- What a program sees when it uses a reference. -/
def RefNavigator.look (n : RefNavigator) (r : NavRef) : Except Err NavAnswer :=
  match (if r.reverse then n.rMap else n.map).read r.node with
  | .ok v => .ok (if r.weights then .weights v.2 else .objects v.1)
  | .error e => .error e

/-- A loop of a program over the objects it got from `getRelatedToObjects( a )`, at least `i`:
`for( unsigned i=0 ; i<v.size() ; ++i ) nav.removeRelation( a , v[i] ) ;` with a reference `v`. `fuel` bounds the steps. -/
def RefNavigator.removeLoop (add : W32 → W32 → W32) (v : NavRef) (a : Nat) : Nat → RefNavigator → Nat → Except Err RefNavigator
  | 0, _, _ => .error .diverge
  | fuel + 1, n, i =>
    match n.look v with
    | .ok (.objects l) =>
      match l[i]? with
      | none => .ok n
      | some b => removeLoop add v a fuel (n.call add (.remove a b)).2 (i + 1)
    | .ok _ => .error .ub
    | .error e => .error e

end Util
