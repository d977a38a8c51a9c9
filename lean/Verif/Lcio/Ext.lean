import Verif.Lcio.Elements
/-
Extensions of objects at run time, src/cpp/include/LCRTRelations.h: what a program attaches to objects with `ext<V>()`.
-/
namespace Lcio
open Sio

/-- What the class `V` that names an extension says: whether it is a container (`LCExtensionVector`, `LCExtensionList` and the owned ones, LCRTRelations.h:203-234) or a single value
(`LCIntExtension`, `LCFloatExtension`, `LCBoolExtension`, 260-343; `LCExtension`, `LCOwnedExtension`, 190-199), and whether what its pointers point to is deleted (`DeletePtr`, `DeleteElements`, 38-53). -/
structure ExtKind where
  many : Bool
  owned : Bool
  deriving DecidableEq

/-- An object: whether it is a `TrackImpl`, whose copy constructor and assignment are its own, and the `_extensionMap`, LCRTRelations.h:558: for each extension that was used the place that holds it. Simplification: the map is
in the order in which the extensions were used first, which decides only the order in which they are deleted. -/
structure ExtObj where
  track : Bool
  ext : List (Nat × Nat) := []
  deriving DecidableEq

/-- The objects of a program, by their addresses; the places for extensions, to which objects have shared pointers, with the class and what is in it (numbers, or addresses of what the program has made, where 0 is the
null pointer); and what was deleted by the destructors of places, in order. Simplification: addresses are not used again. -/
structure ExtWorld where
  objs : List (Option ExtObj) := []
  places : List (Nat × List Nat) := []
  dead : List Nat := []
  deriving DecidableEq

/-- What a program does. `put` is the assignment `ext<V>() = x` for a single value and `ext<V>()->push_back( x )` for a container. Simplification: containers are only changed with `push_back`. -/
inductive ExtCall where
  | make (track : Bool)
  | get (a tag : Nat)
  | put (a tag x : Nat)
  | copy (a : Nat)
  | assign (a b : Nat)
  | delete (a : Nat)
  deriving DecidableEq

/-- The object at an address. -/
def ExtWorld.obj (w : ExtWorld) (a : Nat) : Option ExtObj := (w.objs[a]?).join

/-- What is in a new place: `LCBaseTraits()`, LCRTRelations.h:77-79, with `SimplePtrInit` or `CreationPtrInit`, 27-32, or the initialiser of `_pointer`, 283, 316, 342. -/
def ExtKind.init (k : ExtKind) : List Nat := if k.many then [] else [0]

/-- `ptr<V>()`, LCRTRelations.h:531-554, for an object that exists: the place for the extension, which is made when it is first asked for. -/
def ExtWorld.ptr (K : Nat → ExtKind) (w : ExtWorld) (a : Nat) (o : ExtObj) (tag : Nat) : Nat × ExtWorld :=
  match o.ext.find? (·.1 == tag) with
  | some e => (e.2, w)
  | none => (w.places.length, { w with
      objs := w.objs.set a (some { o with ext := o.ext ++ [(tag, w.places.length)] })
      places := w.places ++ [(tag, (K tag).init)] })

/-- Some object has a shared pointer to the place. -/
def ExtWorld.used (w : ExtWorld) (h : Nat) : Bool := w.objs.any fun o => match o with
  | some o => o.ext.any (·.2 == h)
  | none => false

/-- What a destructor deletes when a shared pointer to the place was the last one: `~LCBaseTraits`, LCRTRelations.h:82-84, with `DeletePtr`, `DeleteElements` or `NoDelete`, 34-53. -/
def ExtWorld.owns (K : Nat → ExtKind) (w : ExtWorld) (h : Nat) : List Nat :=
  if w.used h then [] else match w.places[h]? with
    | some p => if (K p.1).owned then p.2 else []
    | none => []

/-- An object gives up its shared pointers to places. -/
def ExtWorld.release (K : Nat → ExtKind) (w : ExtWorld) (hs : List Nat) : Except Err ExtWorld :=
  (deleteObjects (hs.flatMap (w.owns K)) w.dead).map fun dead => { w with dead := dead }

/-- One call, and what `ext<V>()` shows. `TrackImpl`, src/cpp/src/IMPL/TrackImpl.cc:23-51, does not copy or assign its base classes; other classes have the copy constructor and assignment of the compiler, which copy
the map of shared pointers. (The object that is assigned from is of the same class.) To use an object that does not exist is undefined behaviour. -/
def ExtWorld.call (K : Nat → ExtKind) (w : ExtWorld) : ExtCall → Except Err (List Nat × ExtWorld)
  | .make track => .ok ([], { w with objs := w.objs ++ [some { track := track }] })
  | .get a tag => match w.obj a with
    | none => .error .ub
    | some o =>
      let r := w.ptr K a o tag
      .ok (((r.2.places[r.1]?).map (·.2)).getD [], r.2)
  | .put a tag x => match w.obj a with
    | none => .error .ub
    | some o =>
      let r := w.ptr K a o tag
      .ok ([], { r.2 with places := r.2.places.modify r.1 fun p => (p.1, if (K tag).many then p.2 ++ [x] else [x]) })
  | .copy a => match w.obj a with
    | none => .error .ub
    | some o => .ok ([], { w with objs := w.objs ++ [some { track := o.track, ext := if o.track then [] else o.ext }] })
  | .assign a b => match w.obj a, w.obj b with
    | some o, some o' =>
      if o.track then .ok ([], w)
      else (({ w with objs := w.objs.set a (some { o with ext := o'.ext }) } : ExtWorld).release K (o.ext.map (·.2))).map fun w => ([], w)
    | _, _ => .error .ub
  | .delete a => match w.obj a with
    | none => .error .ub
    | some o => (({ w with objs := w.objs.set a none } : ExtWorld).release K (o.ext.map (·.2))).map fun w => ([], w)

/-- A program: what the calls show, and what there is after them. -/
def ExtWorld.run (K : Nat → ExtKind) : ExtWorld → List ExtCall → Except Err (List (List Nat) × ExtWorld)
  | w, [] => .ok ([], w)
  | w, c :: cs => match w.call K c with
    | .error e => .error e
    | .ok (r, w) => match w.run K cs with
      | .error e => .error e
      | .ok (rs, w) => .ok (r :: rs, w)

end Lcio
