import Verif.Lcio.Build
/-
Copies of objects: copy constructors, assignments and destructors of the classes in `IMPL`.
-/
namespace Lcio
open Sio

/-- How a class copies the parts that its objects own. -/
inductive CKind where
  /-- `TrackImpl`: the parts are the track states, which are copied (src/cpp/src/IMPL/TrackImpl.cc:22-51) -/
  | track
  /-- all other classes: the copy constructor and assignment of the compiler, which copy pointers. The parts are the particle ids of `ClusterImpl` (src/cpp/src/IMPL/ClusterImpl.cc:16-21) and
  `ReconstructedParticleImpl` (ReconstructedParticleImpl.cc:31-36), the contributions of `SimCalorimeterHitImpl` (SimCalorimeterHitImpl.cc:53-61), the array of `TPCHitImpl` (TPCHitImpl.cc:17-21), and
  the elements of `LCCollectionVec` that is not a subset (LCCollectionVec.cc:33-47); objects of other classes have none -/
  | other
  deriving DecidableEq

/-- An object: `_id` and `_readOnly` of `AccessChecked` (src/cpp/include/IMPL/AccessChecked.h:36-38), what is copied by any assignment, the vectors of numbers and of pointers to objects that it does not own
(as one list), and pointers to its parts. -/
structure CObj (δ : Type) where
  kind : CKind
  id : W32
  readOnly : Bool := false
  data : δ
  lists : List Nat := []
  parts : List Nat := []

/-- The objects and parts that exist, by their addresses, the next addresses, and `AccessChecked::_lCObjectId`, of which only the lowest 32 bits matter. Simplified: the addresses of what was deleted are not used again;
objects and parts have separate addresses. -/
structure CMem (δ π : Type) where
  objs : Nat → Option (CObj δ) := fun _ => none
  next : Nat := 0
  parts : Nat → Option π := fun _ => none
  nextPart : Nat := 0
  ids : Nat := 0

variable {δ π : Type}

/-- Change what is at an address. -/
def setAt {α : Type} (f : Nat → Option α) (a : Nat) (x : Option α) : Nat → Option α := fun b => if b = a then x else f b

/-- What the program does with objects. -/
inductive CCall (δ π : Type) where
  /-- a new object -/
  | make (kind : CKind) (d : δ)
  /-- a setter -/
  | set (a : Nat) (d : δ)
  /-- adding something that the object does not own (`addHit`, `addTrack`, ...) -/
  | push (a : Nat) (n : Nat)
  /-- adding a new part (`addTrackState`, `addParticleID`, `addMCParticleContribution`, `addElement`) -/
  | addPart (a : Nat) (p : π)
  /-- changing the part with number `i` through its pointer -/
  | setPart (a i : Nat) (p : π)
  /-- the access mode, as set by the event that the object belongs to -/
  | lock (a : Nat) (readOnly : Bool)
  /-- `new X( *a )` -/
  | copy (a : Nat)
  /-- `new SimCalorimeterHitImpl( *a )` where `a` is a pointer to a `SimCalorimeterHit` -/
  | copyHit (a : Nat)
  /-- `*a = *b` -/
  | assign (a b : Nat)
  /-- `delete a` -/
  | delete (a : Nat)
  /-- all functions that return something -/
  | read (a : Nat)

/-- What can be read from an object: its data, the lists and its parts. -/
abbrev Seen (δ π : Type) := δ × List Nat × List π

/-- The values of parts. A pointer to a part that does not exist may not be used. -/
def CMem.values (m : CMem δ π) : List Nat → Except Err (List π)
  | [] => .ok []
  | q :: qs => match m.parts q with
    | none => .error .ub
    | some p => (m.values qs).map (p :: ·)

/-- Deleting parts: what has been deleted may not be deleted again. -/
def freeAll (parts : Nat → Option π) : List Nat → Except Err (Nat → Option π)
  | [] => .ok parts
  | q :: qs => match parts q with
    | none => .error .ub
    | some _ => freeAll (setAt parts q none) qs

/-- New parts with these values, at the next addresses. -/
def CMem.newParts (m : CMem δ π) (ps : List π) : CMem δ π :=
  { m with parts := fun q => if q < m.nextPart then m.parts q else if q < m.nextPart + ps.length then ps[q - m.nextPart]? else m.parts q, nextPart := m.nextPart + ps.length }

/-- A new object at the next address. -/
def CMem.newObj (m : CMem δ π) (o : CObj δ) : CMem δ π := { m with objs := setAt m.objs m.next (some o), next := m.next + 1 }

/-- `AccessChecked::AccessChecked()`, src/cpp/src/IMPL/AccessChecked.cc:9-12: the number of the next object. -/
def CMem.newId (m : CMem δ π) : W32 × CMem δ π := (BitVec.ofNat 32 m.ids, { m with ids := m.ids + 1 })

/-- An object that owns copies of parts. -/
def CMem.deepCopy (m : CMem δ π) (o : CObj δ) : Except Err (CMem δ π) :=
  match m.values o.parts with
  | .error e => .error e
  | .ok ps =>
    let (id, m) := m.newId
    let first := m.nextPart
    .ok ((m.newParts ps).newObj { o with id := id, readOnly := false, parts := (List.range ps.length).map (first + ·) })

/-- `TrackImpl::operator=`, TrackImpl.cc:30-51. The lists and the states of the other track are added to those that are there. For `t = t` this is `std::copy` from a vector to its own end, which invalidates the
iterators if there is anything to copy; the loop over the states adds one in each step and never ends. -/
def CMem.assignTrack (m : CMem δ π) (a b : Nat) (oa ob : CObj δ) : Except Err (CMem δ π) :=
  if a = b then
    if ob.lists ≠ [] then .error .ub
    else if ob.parts ≠ [] then .error .diverge
    else .ok m
  else match m.values ob.parts with
    | .error e => .error e
    | .ok ps =>
      let first := m.nextPart
      let m := m.newParts ps
      .ok { m with objs := setAt m.objs a (some { oa with data := ob.data, lists := oa.lists ++ ob.lists, parts := oa.parts ++ (List.range ps.length).map (first + ·) }) }

/-- One call: what is returned and the memory afterwards. The order by likelihood of particle ids is not modelled, nor are the access modes of parts. -/
def CMem.step (m : CMem δ π) : CCall δ π → Except Err (Option (Seen δ π)) × CMem δ π
  | .make kind d => let (id, m) := m.newId; (.ok none, m.newObj { kind, id, data := d })
  | .set a d => match m.objs a with
    | none => (.error .ub, m)
    | some o => if o.readOnly then (.error .readOnly, m) else (.ok none, { m with objs := setAt m.objs a (some { o with data := d }) })
  | .push a n => match m.objs a with
    | none => (.error .ub, m)
    | some o => if o.readOnly then (.error .readOnly, m) else (.ok none, { m with objs := setAt m.objs a (some { o with lists := o.lists ++ [n] }) })
  | .addPart a p => match m.objs a with
    | none => (.error .ub, m)
    | some o =>
      if o.readOnly then (.error .readOnly, m)
      else
        let q := m.nextPart
        let m := m.newParts [p]
        (.ok none, { m with objs := setAt m.objs a (some { o with parts := o.parts ++ [q] }) })
  | .setPart a i p => match m.objs a with
    | none => (.error .ub, m)
    | some o => match o.parts[i]? with
      | none => (.error .ub, m)
      | some q => match m.parts q with
        | none => (.error .ub, m)
        | some _ => (.ok none, { m with parts := setAt m.parts q (some p) })
  | .lock a b => match m.objs a with
    | none => (.error .ub, m)
    | some o => (.ok none, { m with objs := setAt m.objs a (some { o with readOnly := b }) })
  | .copy a => match m.objs a with
    | none => (.error .ub, m)
    | some o => match o.kind with
      | .track => match m.deepCopy o with
        | .error e => (.error e, m)
        | .ok m => (.ok none, m)
      | .other => (.ok none, m.newObj o)
  | .copyHit a => match m.objs a with
    | none => (.error .ub, m)
    | some o => match m.deepCopy o with
      | .error e => (.error e, m)
      | .ok m => (.ok none, m)
  | .assign a b => match m.objs a, m.objs b with
    | some oa, some ob => match oa.kind with
      | .track => match m.assignTrack a b oa ob with
        | .error e => (.error e, m)
        | .ok m => (.ok none, m)
      | .other => (.ok none, { m with objs := setAt m.objs a (some ob) })
    | _, _ => (.error .ub, m)
  | .delete a => match m.objs a with
    | none => (.error .ub, m)
    | some o => match freeAll m.parts o.parts with
      | .error e => (.error e, m)
      | .ok parts => (.ok none, { m with objs := setAt m.objs a none, parts := parts })
  | .read a => match m.objs a with
    | none => (.error .ub, m)
    | some o => match m.values o.parts with
      | .error e => (.error e, m)
      | .ok ps => (.ok (some (o.data, o.lists, ps)), m)

/-- A sequence of calls. Exceptions are caught. -/
def CMem.run (m : CMem δ π) : List (CCall δ π) → List (Except Err (Option (Seen δ π))) × CMem δ π
  | [] => ([], m)
  | c :: cs => let r := m.step c; let t := r.2.run cs; (r.1 :: t.1, t.2)

end Lcio
