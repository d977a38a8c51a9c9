import Verif.Lcio.Setters
import Verif.Lcio.Copies
/-
Classes of users with a fixed number of values: `UTIL::LCFixedObject` and `UTIL::EventSummary`.
-/
namespace Lcio
open Sio

/-- A class derived from `LCFixedObject<NINT,NFLOAT,NDOUBLE>`, src/cpp/include/UTIL/LCFixedObject.h: the numbers of values, and what its functions `getTypeName` and `getDataDescription` return. -/
structure FixedClass where
  nInt : Nat
  nFloat : Nat
  nDouble : Nat
  typeName : Str
  descr : Str
  deriving DecidableEq

/-- `LCFixedObject()`, LCFixedObject.h:37-40, and `LCGenericObjectImpl(nInt, nFloat, nDouble)`, src/cpp/src/IMPL/LCGenericObjectImpl.cc:20-25. -/
def FixedClass.make (K : FixedClass) : Generic :=
  { ints := List.replicate K.nInt 0, floats := List.replicate K.nFloat 0, doubles := List.replicate K.nDouble 0, fixed := true }

/-- The object that a handler sees when an object of the class is in a collection: the functions of the interface, LCFixedObject.h:92-109. -/
def FixedClass.stored (K : FixedClass) (g : Generic) : Generic := { g with fixed := true, typeName := K.typeName, descr := K.descr }

/-- What a `LCObject*` can point at, for the constructor `LCFixedObject(LCObject*)`. -/
inductive AnyObject where
  /-- an `LCGenericObjectImpl`, like all generic objects that are read from files -/
  | impl (g : Generic)
  /-- an object of another class derived from `LCFixedObject`, with its data -/
  | fixed (K : FixedClass) (g : Generic)
  /-- null, or something else -/
  | other

/-- `LCFixedObject(LCObject* object)`, LCFixedObject.h:48-78: the data of the object. The second `dynamic_cast` succeeds for the same template arguments. -/
def FixedClass.wrap (K : FixedClass) (o : AnyObject) : Except Err Generic :=
  let found : Option Generic := match o with
    | .impl g => some g
    | .fixed K' g => if K'.nInt = K.nInt ∧ K'.nFloat = K.nFloat ∧ K'.nDouble = K.nDouble then some g else none
    | .other => none
  match found with
  | none => .error .lcException
  | some g => if g.ints.length ≠ K.nInt ∨ g.floats.length ≠ K.nFloat ∨ g.doubles.length ≠ K.nDouble then .error .lcException else .ok g

/-- Calls of `setIntVal` and so on of the data. -/
def setAll (g : Generic) : List Generic.Setter → Except Err Generic
  | [] => .ok g
  | s :: ss => match g.change false s with
    | .error e => .error e
    | .ok g => setAll g ss

/-! ## EventSummary -/

/-- `EventSummaryIntValues`, src/cpp/include/UTIL/EventSummary.h:13-28, in the order of their numbers. -/
def esInts : List Str :=
  [str "runnum", str "evtnum", str "chpfonum", str "neupfonum", str "elnum", str "munum", str "taunum", str "phonum", str "jetnum", str "bcpfonum", str "trknum", str "clunum", str "mcproc"]

/-- `EventSummaryFloatValues`, EventSummary.h:34-51. -/
def esFloats : List Str :=
  [str "epfotot", str "emcptot", str "thrust", str "spher", str "emiss", str "pxmiss", str "pymiss", str "pzmiss", str "y12", str "y23", str "y34", str "y45", str "y56", str "y67", str "y78"]

/-- `EventSummaryDoubleValues`, EventSummary.h:57-59: there are none. -/
def esDoubles : List Str := []

/-- `EventSummary`, EventSummary.h:70 and 119-127. `ESD` is `EventSummaryFloatValues` (EventSummary.h:61), so that `int(ESD::SIZE)` is 15. -/
def eventSummary : FixedClass where
  nInt := esInts.length
  nFloat := esFloats.length
  nDouble := esFloats.length
  typeName := str "EventSummary"
  descr := str "i:runnum,i:evtnum,i:chpfonum,i:neupfonum,i:elnum,i:munum,i:taunum,i:phonum,i:jetnum,i:bcpfonum,i:trknum,i:clunum,i:mcproc,f:epfotot,f:emcptot,f:thrust,f:spher,f:emiss,f:pxmiss,f:pymiss,f:pzmiss,f:y12,f:y23,f:y34,f:y45,f:y56,f:y67,f:y78"

/-! ## Who deletes the data -/

/-- Objects of such classes in memory: the data that exists, by its address, and for each object `_obj` and `_createdObject`. -/
structure FMem where
  data : Nat → Option Generic := fun _ => none
  nextData : Nat := 0
  objs : Nat → Option (Nat × Bool) := fun _ => none
  next : Nat := 0

/-- What is done with them: an object is made; data is read from a file; an object is made for data; an object is copied (LCFixedObject.h:30, `= default`), deleted (LCFixedObject.h:87-89), a value is
set or read. -/
inductive FCall where
  | make (K : FixedClass)
  | load (g : Generic)
  | wrap (K : FixedClass) (d : Nat)
  | copy (a : Nat)
  | delete (a : Nat)
  | set (a : Nat) (s : Generic.Setter)
  | get (a : Nat) (g : Generic.Getter)

/-- One call. -/
def FMem.step (m : FMem) : FCall → Except Err (Option Val) × FMem
  | .make K => (.ok none, { m with data := setAt m.data m.nextData (some K.make), nextData := m.nextData + 1, objs := setAt m.objs m.next (some (m.nextData, true)), next := m.next + 1 })
  | .load g => (.ok none, { m with data := setAt m.data m.nextData (some g), nextData := m.nextData + 1 })
  | .wrap K d => match m.data d with
    | none => (.error .ub, m)
    | some g => match K.wrap (.impl g) with
      | .error e => (.error e, m)
      | .ok _ => (.ok none, { m with objs := setAt m.objs m.next (some (d, false)), next := m.next + 1 })
  | .copy a => match m.objs a with
    | none => (.error .ub, m)
    | some o => (.ok none, { m with objs := setAt m.objs m.next (some o), next := m.next + 1 })
  | .delete a => match m.objs a with
    | none => (.error .ub, m)
    | some (d, created) =>
      if created then match m.data d with
        | none => (.error .ub, m)
        | some _ => (.ok none, { m with data := setAt m.data d none, objs := setAt m.objs a none })
      else (.ok none, { m with objs := setAt m.objs a none })
  | .set a s => match m.objs a with
    | none => (.error .ub, m)
    | some (d, _) => match m.data d with
      | none => (.error .ub, m)
      | some g => match g.change false s with
        | .error e => (.error e, m)
        | .ok g => (.ok none, { m with data := setAt m.data d (some g) })
  | .get a q => match m.objs a with
    | none => (.error .ub, m)
    | some (d, _) => match m.data d with
      | none => (.error .ub, m)
      | some g => (.ok (some (g.get q)), m)

/-- A sequence of calls. -/
def FMem.run (m : FMem) : List FCall → List (Except Err (Option Val)) × FMem
  | [] => ([], m)
  | c :: cs => let r := m.step c; let t := r.2.run cs; (r.1 :: t.1, t.2)

end Lcio
