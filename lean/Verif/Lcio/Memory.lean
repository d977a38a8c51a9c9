import Verif.Lcio.Params
/-
The event as an object in memory: its named collections, who owns them, and the access mode.
-/
namespace Lcio
open Sio

/-- `IMPL::LCEventImpl`, src/cpp/include/IMPL/LCEventImpl.h:178-199, as far as its collections are concerned: `_colMap` (a `std::map` from names
to collections), `_notOwned`, and `_readOnly` of the base class. A collection is given by its address; 0 is the null pointer. `transient`
are the collections whose transient flag was set by `takeCollection`: the flag itself is in the collection. -/
structure EventObj where
  colMap : List (Str × Nat) := []
  notOwned : List Nat := []
  transient : List Nat := []
  readOnly : Bool := false
  deriving DecidableEq, Repr

/-- `LCEventImpl::getCollectionNames`, src/cpp/src/IMPL/LCEventImpl.cc:60-67. -/
def EventObj.getCollectionNames (e : EventObj) : List Str := e.colMap.map (·.1)

/-- `LCEventImpl::getCollection`, LCEventImpl.cc:71-89. -/
def EventObj.getCollection (e : EventObj) (name : Str) : Except Err Nat :=
  match omFind strLt name e.colMap with
  | none => .error .notAvailable
  | some c => .ok c

/-- `LCEventImpl::takeCollection`, LCEventImpl.cc:92-102. All collections are `LCCollectionVec`s (for another implementation of the
interface the code dereferences a null pointer). -/
def EventObj.takeCollection (e : EventObj) (name : Str) : Except Err (Nat × EventObj) :=
  match e.getCollection name with
  | .error x => .error x
  | .ok c => .ok (c, { e with transient := c :: e.transient, notOwned := c :: e.notOwned })

/-- `LCEventImpl::addCollection`, LCEventImpl.cc:107-130. `validateCollectionName` (195-210) is a copy of `sio::validate`; it gets
`name.c_str()`. -/
def EventObj.addCollection (e : EventObj) (col : Nat) (name : Str) : Except Err EventObj :=
  if !validate name then .error .eventException
  else if (omFind strLt name e.colMap).isSome then .error .eventException
  else if col = 0 then .error .eventException
  else .ok { e with colMap := (omAssign strLt name col e.colMap).1 }

/-- `LCEventImpl::removeCollection`, LCEventImpl.cc:134-140. -/
def EventObj.removeCollection (e : EventObj) (name : Str) : Except Err EventObj :=
  if e.readOnly then .error .readOnly
  else .ok { e with colMap := omErase strLt name e.colMap }

/-- `LCEventImpl::setAccessMode`, LCEventImpl.cc:174-190, without the collections. -/
def EventObj.setAccessMode (e : EventObj) (readOnly : Bool) : EventObj := { e with readOnly := readOnly }

/-- The loop of `LCEventImpl::~LCEventImpl`, LCEventImpl.cc:24-32: the collections deleted, in order. Deleting an object twice is undefined
behaviour. `dead` are objects that do not exist any more. -/
def destroyLoop (notOwned : List Nat) : List (Str × Nat) → List Nat → Except Err (List Nat)
  | [], dead => .ok dead
  | e :: m, dead =>
    if notOwned.contains e.2 then destroyLoop notOwned m dead
    else if dead.contains e.2 then .error .ub
    else destroyLoop notOwned m (dead ++ [e.2])

/-- `LCEventImpl::~LCEventImpl`: the collections it deletes. -/
def EventObj.destroy (e : EventObj) : Except Err (List Nat) := destroyLoop e.notOwned e.colMap []

/-! ## Sequences of calls -/

/-- A call of a public member function of an event. -/
inductive EventCall where
  | add (col : Nat) (name : Str)
  | get (name : Str)
  | take (name : Str)
  | remove (name : Str)
  | names
  | setAccessMode (readOnly : Bool)
  deriving DecidableEq, Repr

/-- What a call returns. -/
inductive EventAnswer where
  | done
  | collection (col : Nat)
  | names (l : List Str)
  | threw (e : Err)
  deriving DecidableEq, Repr

/-- One call: the answer and the event afterwards. An exception leaves the event as it is: all checks come before the changes. -/
def EventObj.call (e : EventObj) : EventCall → EventAnswer × EventObj
  | .add col name => match e.addCollection col name with
    | .error x => (.threw x, e)
    | .ok e' => (.done, e')
  | .get name => match e.getCollection name with
    | .error x => (.threw x, e)
    | .ok c => (.collection c, e)
  | .take name => match e.takeCollection name with
    | .error x => (.threw x, e)
    | .ok (c, e') => (.collection c, e')
  | .remove name => match e.removeCollection name with
    | .error x => (.threw x, e)
    | .ok e' => (.done, e')
  | .names => (.names e.getCollectionNames, e)
  | .setAccessMode ro => (.done, e.setAccessMode ro)

/-- A sequence of calls: the answers and the event at the end. -/
def EventObj.calls (e : EventObj) : List EventCall → List EventAnswer × EventObj
  | [] => ([], e)
  | c :: cs => let r := e.call c; let r' := r.2.calls cs; (r.1 :: r'.1, r'.2)

/-! ## Parameters -/

/-- The three types of parameter values. -/
inductive PType where
  | int | float | str
  deriving DecidableEq, Repr

/-- Values of a type: 32-bit integers, 32-bit floats (as bits) and strings. -/
abbrev PType.T : PType → Type
  | .int => W32
  | .float => W32
  | .str => Str

/-- What a missing key reads as: 0, 0.0f (all bits zero) or the empty string. -/
def PType.zero : (t : PType) → t.T
  | .int => 0#32
  | .float => 0#32
  | .str => []

/-- The map of a type. -/
def Params.map (p : Params) : (t : PType) → VecMap t.T
  | .int => p.ints
  | .float => p.floats
  | .str => p.strs

/-- A call of a public member function of `LCParametersImpl`. `getVals` and `getKeys` are given a vector that may contain something. -/
inductive ParamCall where
  | set (t : PType) (key : Str) (v : t.T)
  | setAll (t : PType) (key : Str) (vs : List t.T)
  | get (t : PType) (key : Str)
  | getAll (t : PType) (key : Str) (given : List t.T)
  | keys (t : PType) (given : List Str)
  | count (t : PType) (key : Str)
  /-- `p.setValue(key, p.getStringVal(source))`: `getStringVal` returns a reference into the map, and `setValue` takes a reference. -/
  | setOwn (key source : Str)

/-- What a call returns. -/
inductive ParamAnswer where
  | done
  | value (t : PType) (v : t.T)
  | values (t : PType) (vs : List t.T)
  | keys (l : List Str)
  | number (n : Nat)

/-- `setValue` for each type. -/
def Params.set (p : Params) : (t : PType) → Str → t.T → Except Err Params
  | .int, k, v => p.setInt k v
  | .float, k, v => p.setFloat k v
  | .str, k, v => p.setStr k v

/-- `setValues` for each type. -/
def Params.setAll (p : Params) : (t : PType) → Str → List t.T → Except Err Params
  | .int, k, v => p.setInts k v
  | .float, k, v => p.setFloats k v
  | .str, k, v => p.setStrs k v

/-- `p.setValue(key, p.getStringVal(source))`, LCParametersImpl.cc:36-47 and 159-165. If `source` is in the map, `value` is a reference to
the first string of its vector. If it is the same vector (`source` = `key`), `_stringMap[key].clear()` destroys that string before
`push_back(value)` copies it: undefined behaviour. -/
def Params.setOwn (p : Params) (key source : Str) : Except Err Params :=
  match getVal [] p.strs source with
  | .error e => .error e
  | .ok v =>
    if p.readOnly then .error .readOnly
    else if key = source ∧ (omFind strLt source p.strs).isSome then .error .ub
    else p.setStr key v

/-- One call. -/
def Params.call (p : Params) : ParamCall → Except Err (ParamAnswer × Params)
  | .set t k v => match p.set t k v with
    | .error e => .error e
    | .ok p' => .ok (.done, p')
  | .setAll t k vs => match p.setAll t k vs with
    | .error e => .error e
    | .ok p' => .ok (.done, p')
  | .get t k => match getVal t.zero (p.map t) k with
    | .error e => .error e
    | .ok v => .ok (.value t v, p)
  | .getAll t k given => .ok (.values t (getVals (p.map t) k given), p)
  | .keys t given => .ok (.keys (getKeys (p.map t) given), p)
  | .count t k => .ok (.number (getN (p.map t) k), p)
  | .setOwn k s => match p.setOwn k s with
    | .error e => .error e
    | .ok p' => .ok (.done, p')

/-- A sequence of calls; it ends at the first that throws. -/
def Params.calls (p : Params) : List ParamCall → Except Err (List ParamAnswer × Params)
  | [] => .ok ([], p)
  | c :: cs => match p.call c with
    | .error e => .error e
    | .ok (a, p') => match p'.calls cs with
      | .error e => .error e
      | .ok (as, p'') => .ok (a :: as, p'')

end Lcio
