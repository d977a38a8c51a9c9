import Verif.Util.StdHep
/-
The second reader of StdHep files, src/cpp/src/UTIL/LCStdHepRdrNew.cc. It is a copy of `LCStdHepRdr` with one more loop and the numbers of events.
-/
namespace Util
open Sio

/-- `mcDau->addParent( mcPar )` unless the daughter is listed already, LCStdHepRdrNew.cc:468-473 and 476-481. `getElementAt` behind the end of the collection is
undefined behaviour. -/
def hepAdopt (n : Nat) (mcDau : Nat) (h : Lcio.PHeap) (mom : Int) : Except Err Lcio.PHeap :=
  if mom < 0 ∨ n ≤ mom.toNat then .error .ub
  else match h mom.toNat with
    | none => .error .ub
    | some mcPar => if mcPar.daughters.contains mcDau then .ok h else .ok (Lcio.addParent h mcDau mom.toNat).2

/-- The fourth loop of `LCStdHepRdrNew::readEvent`, LCStdHepRdrNew.cc:460-484, for one particle with its mother numbers. `int mom1 = mother1 - 1` converts a
`long` to 32 bits. -/
def hepMothers (n : Nat) (mcDau : Nat) (h : Lcio.PHeap) (mother1 mother2 : Int) : Except Err Lcio.PHeap :=
  let mom1 := (BitVec.ofInt 32 (mother1 - 1)).toInt
  let mom2 := (BitVec.ofInt 32 (mother2 - 1)).toInt
  if mom1 > 0 ∧ mom2 = -1 then hepAdopt n mcDau h mom1
  else if mom1 > -1 ∧ mom2 > -1 then (List.range (mom2 - mom1 + 1).toNat).foldlM (fun h k => hepAdopt n mcDau h (mom1 + (k : Nat))) h
  else .ok h

/-- `LCStdHepRdrNew::readEvent`, LCStdHepRdrNew.cc:126-487, behind the reading. Its first three loops (lines 156-456) are those of `LCStdHepRdr::readEvent`
character by character, up to spaces and comments. -/
def hepCollectionNew (ar : HepArith) (ev : LEvent) : Except Err HepCollection := do
  let c ← hepCollection ar ev
  let n := ev.nhep.toNat
  let h ← (List.range n).foldlM (fun (h : Lcio.PHeap) i => do
    let m1 ← element ev.jmohep (i + i + 0)
    let m2 ← element ev.jmohep (i + i + 1)
    hepMothers n i h m1 m2) (fun a => c.relatives[a]?)
  pure { c with relatives := (List.range n).map fun i => (h i).getD {} }

/-- `LCStdHepRdrNew::readEvent`, LCStdHepRdrNew.cc:87-487: no collection at the end of the file. -/
def hepReadEventNew (ar : HepArith) (fuel : Nat) (s : LStdHep) : Except Err (Option HepCollection × LStdHep) :=
  match s.readEvent fuel with
  | .error e => .error e
  | .ok s =>
    if s.x.err ≠ 0 then if s.x.err ≠ lshEndOfFile then .error .ioException else .ok (none, s)
    else match hepCollectionNew ar s.event with
      | .error e => .error e
      | .ok c => .ok (some c, s)

/-- `LCStdHepRdrNew::updateNextEvent`, LCStdHepRdrNew.cc:49-82, for an event without these parameters: the parameters `_idrup` and `_weight` the event gets, the
collection that is added to it, and the number it gets, if the reader was asked to write numbers (`setWriteEventNumber`, LCStdHepRdrNew.h:78-80;
`int` from `long`). -/
def hepUpdateNextNew (ar : HepArith) (fuel : Nat) (writeNumber : Bool) (s : LStdHep) : Except Err ((Int × W32 × HepCollection × Option Int) × LStdHep) :=
  match hepReadEventNew ar fuel s with
  | .error e => .error e
  | .ok (none, _) => .error .endOfData
  | .ok (some c, s) => .ok ((c.idrup.getD 0, ar.narrow (ar.widen c.weight), c, if writeNumber then some (BitVec.ofInt 32 s.event.nevhep).toInt else none), s)

end Util
