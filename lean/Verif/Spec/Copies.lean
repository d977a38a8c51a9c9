import Verif.Lcio.Copies
/-
Specification vocabulary: objects as values.
-/
namespace Spec
open Sio Lcio

/-- An object as a value: it has its parts, and shares nothing with others. -/
structure Value (δ π : Type) where
  kind : CKind
  readOnly : Bool := false
  data : δ
  lists : List Nat := []
  parts : List π := []

/-- All objects, by their numbers. -/
structure Values (δ π : Type) where
  objs : Nat → Option (Value δ π) := fun _ => none
  next : Nat := 0

variable {δ π : Type}

def Values.add (s : Values δ π) (v : Value δ π) : Values δ π := { objs := setAt s.objs s.next (some v), next := s.next + 1 }

/-- What a call should do: a copy has the same contents and can be changed; an assignment replaces the contents; objects that are read-only cannot be changed. -/
def Values.step (s : Values δ π) : CCall δ π → Except Err (Option (Seen δ π)) × Values δ π
  | .make kind d => (.ok none, s.add { kind, data := d })
  | .set a d => match s.objs a with
    | none => (.error .ub, s)
    | some v => if v.readOnly then (.error .readOnly, s) else (.ok none, { s with objs := setAt s.objs a (some { v with data := d }) })
  | .push a n => match s.objs a with
    | none => (.error .ub, s)
    | some v => if v.readOnly then (.error .readOnly, s) else (.ok none, { s with objs := setAt s.objs a (some { v with lists := v.lists ++ [n] }) })
  | .addPart a p => match s.objs a with
    | none => (.error .ub, s)
    | some v => if v.readOnly then (.error .readOnly, s) else (.ok none, { s with objs := setAt s.objs a (some { v with parts := v.parts ++ [p] }) })
  | .setPart a i p => match s.objs a with
    | none => (.error .ub, s)
    | some v => (.ok none, { s with objs := setAt s.objs a (some { v with parts := v.parts.set i p }) })
  | .lock a b => match s.objs a with
    | none => (.error .ub, s)
    | some v => (.ok none, { s with objs := setAt s.objs a (some { v with readOnly := b }) })
  | .copy a => match s.objs a with
    | none => (.error .ub, s)
    | some v => (.ok none, s.add { v with readOnly := false })
  | .copyHit a => match s.objs a with
    | none => (.error .ub, s)
    | some v => (.ok none, s.add { v with readOnly := false })
  | .assign a b => match s.objs a, s.objs b with
    | some va, some vb => if va.readOnly then (.error .readOnly, s) else (.ok none, { s with objs := setAt s.objs a (some { vb with readOnly := false }) })
    | _, _ => (.error .ub, s)
  | .delete a => match s.objs a with
    | none => (.error .ub, s)
    | some _ => (.ok none, { s with objs := setAt s.objs a none })
  | .read a => match s.objs a with
    | none => (.error .ub, s)
    | some v => (.ok (some (v.data, v.lists, v.parts)), s)

def Values.run (s : Values δ π) : List (CCall δ π) → List (Except Err (Option (Seen δ π))) × Values δ π
  | [] => ([], s)
  | c :: cs => let r := s.step c; let t := r.2.run cs; (r.1 :: t.1, t.2)

/-- The object of a call exists, and the part that is changed. Objects are assigned to objects of the same class. -/
def Values.Sensible (s : Values δ π) : CCall δ π → Prop
  | .make _ _ => True
  | .set a _ | .push a _ | .addPart a _ | .lock a _ | .delete a | .read a | .copy a => ∃ v, s.objs a = some v
  | .copyHit a => ∃ v, s.objs a = some v ∧ v.kind = .other
  | .setPart a i _ => ∃ v, s.objs a = some v ∧ i < v.parts.length
  | .assign a b => ∃ va vb, s.objs a = some va ∧ s.objs b = some vb ∧ va.kind = vb.kind

/-- The cases in which copying works: a track, or an object that can be changed and has no parts, is copied; a track is assigned to another one that can be changed and is still empty; objects without parts are assigned
if both can be changed. -/
def Values.Works (s : Values δ π) : CCall δ π → Prop
  | .copy a => ∀ v, s.objs a = some v → v.kind = .other → v.parts = [] ∧ v.readOnly = false
  | .assign a b => ∀ va vb, s.objs a = some va → s.objs b = some vb → va.readOnly = false ∧ va.parts = [] ∧
      (va.kind = .track → a ≠ b ∧ va.lists = []) ∧ (va.kind = .other → vb.readOnly = false ∧ vb.parts = [])
  | _ => True

/-- Of the copies and assignments that the compiler provides none is used. -/
def Values.OnlyTracks (s : Values δ π) : CCall δ π → Prop
  | .copy a | .assign a _ => ∀ v, s.objs a = some v → v.kind = .track
  | _ => True

/-- All calls of a history are like this. -/
def Values.All (P : Values δ π → CCall δ π → Prop) : Values δ π → List (CCall δ π) → Prop
  | _, [] => True
  | s, c :: cs => P s c ∧ Values.All P (s.step c).2 cs

end Spec
