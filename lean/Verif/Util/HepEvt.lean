import Verif.Lcio.Build
/-
The Fortran common block HEPEVT.
-/
namespace Util
open Sio Lcio

/-- What is used of an `MCParticle`. Parents and daughters are addresses of particles. -/
structure HevParticle where
  pdg : Int
  status : Int := 0
  momentum : W64 × W64 × W64
  mass : W64
  charge : W32
  vertex : W64 × W64 × W64
  parents : List Nat := []
  daughters : List Nat := []
  deriving DecidableEq

/-- One entry of the common blocks, src/cpp/include/CPPFORT/hepevt0.h:46-55 and hepevt1.h:28-31. -/
structure HevLine where
  isthep : Int := 0
  idhep : Int := 0
  mother1 : Int := 0
  mother2 : Int := 0
  daughter1 : Int := 0
  daughter2 : Int := 0
  momentum : W64 × W64 × W64 := (0, 0, 0)
  energy : W64 := 0
  mass : W64 := 0
  vertex : W64 × W64 × W64 := (0, 0, 0)
  time : W64 := 0
  pointer : Nat := 0
  charge : W32 := 0
  deriving DecidableEq

/-- The common blocks `FTNhep` and `FTNhep1`; the arrays have 4000 elements. -/
structure HevCommon where
  nevhep : Int := 0
  nhep : Int := 0
  line : Nat → HevLine := fun _ => {}

/-- `NMXHEP`, hepevt0.h:45. -/
def nmxhep : Nat := 4000

/-- Arithmetic: conversion to `float` and back; the energy; the component of a vertex with the largest absolute value, if that is more than 0 (HEPEVT.cc:180-188),
with the production time computed from it (HEPEVT.cc:191-193). -/
structure HevArith where
  toFloat : W64 → W64
  energy : W64 × W64 × W64 → W64 → W64
  largest : W64 × W64 × W64 → Option Nat
  flight : W64 → Nat → HevParticle → HevParticle → W64

/-- The particles in memory. Simplification: pointers between particles point to particles. -/
abbrev HevMem := Nat → HevParticle

/-- The number of the first element of the collection that is this particle, counted from 1; 0 if there is none. HEPEVT.cc:121-127, 136-143, 161-170. -/
def hevPosition (col : List Nat) (p : Nat) : Int := if p ∈ col then (col.idxOf p : Int) + 1 else 0

/-- The number of the first of these particles, HEPEVT.cc:118-127 and 160-170. The elements of the collection are not null. -/
def hevFirst (col : List Nat) : List Nat → Int
  | [] => 0
  | p :: _ => hevPosition col p

/-- `jmohep[j][1]`, HEPEVT.cc:130-147. -/
def hevSecond (col : List Nat) (parents : List Nat) : Int :=
  if hevFirst col parents > 0 ∧ parents.length > 1 then
    match parents.getLast? with
    | none => 0
    | some p => hevPosition col p
  else 0

/-- `jdahep[j][0]`, HEPEVT.cc:150-171. -/
def hevDaughter (col : List Nat) (mcp : HevParticle) : Int := if mcp.status ≠ 3 then hevFirst col mcp.daughters else 0

/-- `vhep[j][3]`, HEPEVT.cc:189-198. The entry of the mother is used; if the mother is not in the collection, this is the one before the array. -/
def hevTime (ar : HevArith) (mem : HevMem) (col : List Nat) (c : HevCommon) (mcp : HevParticle) : Except Err W64 :=
  match mcp.parents.head?, ar.largest mcp.vertex with
  | some p, some k =>
    if hevFirst col mcp.parents > 0 then .ok (ar.flight (c.line (hevFirst col mcp.parents - 1).toNat).time k mcp (mem p)) else .error .ub
  | _, _ => .ok 0

/-- The body of the loop of `HEPEVT::toHepEvt`, src/cpp/src/CPPFORT/HEPEVT.cc:103-203, for element `j`, which is the particle at `a`. -/
def hevFill (ar : HevArith) (mem : HevMem) (col : List Nat) (c : HevCommon) (j a : Nat) : Except Err HevCommon :=
  if nmxhep ≤ j then .error .ub
  else do
    let mcp := mem a
    let time ← hevTime ar mem col c mcp
    let l : HevLine :=
      { isthep := mcp.status, idhep := mcp.pdg, mother1 := hevFirst col mcp.parents, mother2 := hevSecond col mcp.parents,
        daughter1 := hevDaughter col mcp,
        daughter2 := if hevDaughter col mcp > 0 then hevDaughter col mcp + mcp.daughters.length - 1 else 0,
        momentum := mcp.momentum, energy := ar.energy mcp.momentum mcp.mass, mass := mcp.mass, vertex := mcp.vertex, time, pointer := a,
        charge := mcp.charge }
    return { c with line := fun i => if i = j then l else c.line i }

/-- The loop, from element `j` on. -/
def hevFillFrom (ar : HevArith) (mem : HevMem) (col : List Nat) : Nat → List Nat → HevCommon → Except Err HevCommon
  | _, [], c => .ok c
  | j, a :: as, c => do
    let c ← hevFill ar mem col c j a
    hevFillFrom ar mem col (j + 1) as c

/-- `HEPEVT::toHepEvt`, HEPEVT.cc:85-207, for an event with this number that has the collection. -/
def toHepEvt (ar : HevArith) (mem : HevMem) (number : Int) (col : List Nat) (c : HevCommon) : Except Err HevCommon :=
  hevFillFrom ar mem col 0 col { c with nevhep := number, nhep := col.length }

/-- `addParent` for the element with this index, HEPEVT.cc:54-55, 58-59: `getElementAt` outside the collection is undefined behaviour. -/
def hevParent (n : Nat) (j : Nat) (h : PHeap) (i : Int) : Except Err PHeap :=
  if i < 0 ∨ (n : Int) ≤ i then .error .ub else .ok (addParent h j i.toNat).2

/-- The second loop of `HEPEVT::fromHepEvt`, HEPEVT.cc:46-62, for element `j`. -/
def hevParents (n : Nat) (c : HevCommon) (h : PHeap) (j : Nat) : Except Err PHeap := do
  let parent1 := (c.line j).mother1
  let parent2 := (c.line j).mother2
  if parent1 > 0 then do
    let h ← hevParent n j h (parent1 - 1)
    if parent2 > 0 then (List.range (parent2 - parent1).toNat).foldlM (fun h k => hevParent n j h (parent1 + (k : Nat))) h
    else pure h
  else pure h

/-- The particle made of an entry, HEPEVT.cc:25-37. -/
def hevParticle (ar : HevArith) (l : HevLine) : HevParticle :=
  { pdg := l.idhep, status := l.isthep, momentum := (ar.toFloat l.momentum.1, ar.toFloat l.momentum.2.1, ar.toFloat l.momentum.2.2),
    mass := ar.toFloat l.mass, charge := l.charge, vertex := l.vertex }

/-- The new collection: element `i` has the address `i`. HEPEVT.cc:22-62. The arrays are read behind their end if there are too many entries. -/
def hevCollection (ar : HevArith) (c : HevCommon) : Except Err (List HevParticle) := do
  let n := c.nhep.toNat
  if nmxhep < n then .error .ub
  else do
    let h ← (List.range n).foldlM (hevParents n c) (fun a => if a < n then some {} else none)
    return (List.range n).map fun i =>
      { hevParticle ar (c.line i) with parents := ((h i).getD {}).parents, daughters := ((h i).getD {}).daughters }

/-- `HEPEVT::fromHepEvt`, HEPEVT.cc:13-81, for an event with collections of these names and the addresses of their elements: the new collection, and the
common block, where the pointers are set. `name` is the name for the new collection; `addCollection` throws if there is one of that name already. The new
particles are at `base`, `base + 1`, ... Simplification: whether the name is allowed is not considered. -/
def fromHepEvt (ar : HevArith) (base : Nat) (evt : List (List Byte × List Nat)) (name : Option (List Byte)) (c : HevCommon) : Except Err (List HevParticle × HevCommon) := do
  let ps ← hevCollection ar c
  let colName := name.getD (str "MCParticle")
  if (evt.lookup colName).isSome then .error .eventException
  else
    match ((colName, (List.range ps.length).map (base + ·)) :: evt).lookup (str "MCParticle") with
    | none => .error .notAvailable
    | some elements =>
      if nmxhep < elements.length then .error .ub
      else return (ps, { c with line := fun i => match elements[i]? with
                                 | some a => { c.line i with pointer := a }
                                 | none => c.line i })

end Util
