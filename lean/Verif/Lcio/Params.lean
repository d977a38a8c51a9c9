import Verif.Sio.Record
import Verif.Lcio.OrdMap
/-
Named parameters of events, runs and collections, and their serialisation.
-/
namespace Lcio
open Sio

/-- `std::string`: its bytes. -/
abbrev Str := List Byte

/-- `operator<` of `std::string` (used by `std::map<std::string, ...>`): lexicographic in the bytes as unsigned numbers. -/
def strLt : Str → Str → Bool
  | _, [] => false
  | [], _ :: _ => true
  | a :: as, b :: bs => if a < b then true else if b < a then false else strLt as bs

/-- `std::map<std::string, std::vector<T>>`. -/
abbrev VecMap (α : Type) := List (Str × List α)

/-- `IMPL::LCParametersImpl`, src/cpp/include/IMPL/LCParametersImpl.h:20-140: three maps, and the access flag of
`AccessChecked`. Floats are bit patterns. -/
structure Params where
  ints : VecMap W32 := []
  floats : VecMap W32 := []
  strs : VecMap Str := []
  readOnly : Bool := false
  deriving DecidableEq, Repr

/-- `getIntVal`, `getFloatVal`, `getStringVal`, src/cpp/src/IMPL/LCParametersImpl.cc:14-48: `zero` if the key is not there; `v[0]` of
an empty vector is undefined behaviour. -/
def getVal {α : Type} (zero : α) (m : VecMap α) (key : Str) : Except Err α :=
  match omFind strLt key m with
  | none => .ok zero
  | some [] => .error .ub
  | some (v :: _) => .ok v

/-- `getIntVals`, `getFloatVals`, `getStringVals`, LCParametersImpl.cc:50-80: the values are appended to the vector given. -/
def getVals {α : Type} (m : VecMap α) (key : Str) (values : List α) : List α :=
  match omFind strLt key m with
  | none => values
  | some vs => values ++ vs

/-- `getIntKeys`, `getFloatKeys`, `getStringKeys`, LCParametersImpl.cc:83-113: the keys are appended to the vector given. -/
def getKeys {α : Type} (m : VecMap α) (keys : List Str) : List Str := keys ++ m.map (·.1)

/-- `getNInt`, `getNFloat`, `getNString`, LCParametersImpl.cc:115-143. -/
def getN {α : Type} (m : VecMap α) (key : Str) : Nat :=
  match omFind strLt key m with
  | none => 0
  | some vs => vs.length

/-- `_map[key].assign(...)` of `setValues`, LCParametersImpl.cc:171-201. -/
def assignVals {α : Type} (m : VecMap α) (key : Str) (vs : List α) : VecMap α := (omAssign strLt key vs m).1

/-- `_map[key].clear(); _map[key].push_back(value)` of `setValue`, LCParametersImpl.cc:145-167: the vector found under the key (a new
empty one if there is none) is cleared and gets one element. -/
def assignVal {α : Type} (m : VecMap α) (key : Str) (v : α) : VecMap α :=
  let m := (omAssign strLt key [] m).1
  (omAssign strLt key ((omFind strLt key m).getD [] ++ [v]) m).1

/-- Any of the setters, after `checkAccess` (src/cpp/src/IMPL/AccessChecked.cc). -/
def Params.checked (p : Params) (p' : Params) : Except Err Params := if p.readOnly then .error .readOnly else .ok p'

/-- `setValue(key, int)`, LCParametersImpl.cc:145-150. -/
def Params.setInt (p : Params) (key : Str) (v : W32) : Except Err Params := p.checked { p with ints := assignVal p.ints key v }
/-- `setValue(key, float)`, LCParametersImpl.cc:152-157. -/
def Params.setFloat (p : Params) (key : Str) (v : W32) : Except Err Params := p.checked { p with floats := assignVal p.floats key v }
/-- `setValue(key, string)`, LCParametersImpl.cc:159-165. -/
def Params.setStr (p : Params) (key : Str) (v : Str) : Except Err Params := p.checked { p with strs := assignVal p.strs key v }
/-- `setValues(key, IntVec)`, LCParametersImpl.cc:169-178. -/
def Params.setInts (p : Params) (key : Str) (vs : List W32) : Except Err Params := p.checked { p with ints := assignVals p.ints key vs }
/-- `setValues(key, FloatVec)`, LCParametersImpl.cc:180-189. -/
def Params.setFloats (p : Params) (key : Str) (vs : List W32) : Except Err Params := p.checked { p with floats := assignVals p.floats key vs }
/-- `setValues(key, StringVec)`, LCParametersImpl.cc:191-200. -/
def Params.setStrs (p : Params) (key : Str) (vs : List Str) : Except Err Params := p.checked { p with strs := assignVals p.strs key vs }

/-! ## Serialisation -/

/-- One of the three parts of `SIOLCParameters::write`, src/cpp/src/SIO/SIOLCParameters.cc:52-92: number of keys, then for every key
the key, the number of values and the values one by one. -/
def writeMap {α : Type} (w : α → List Item) (m : VecMap α) : List Item :=
  let keys := getKeys m []
  w32 (BitVec.ofNat 32 keys.length) ++ keys.flatMap fun k =>
    let vs := getVals m k []
    wStr k ++ w32 (BitVec.ofNat 32 vs.length) ++ vs.flatMap w

/-- `SIOLCParameters::write`, SIOLCParameters.cc:52-92. -/
def Params.write (p : Params) : List Item := writeMap w32 p.ints ++ writeMap w32 p.floats ++ writeMap wStr p.strs

/-- One key with its values, SIOLCParameters.cc:13-20. The vector is created with the stored length, which throws `std::length_error` if
it is negative. -/
def readEntry {α : Type} (r : RProg α) : RProg (Str × List α) := do
  let key ← rStr
  let n ← r32
  if n.toInt < 0 then .throw .lengthError
  else do
    let vs ← rRepeat n.toNat r
    return (key, vs)

/-- One of the three loops of `SIOLCParameters::read`, SIOLCParameters.cc:10-49. A negative count is an empty loop. -/
def readMap {α : Type} (r : RProg α) (old : VecMap α) : RProg (VecMap α) := do
  let n ← r32
  let es ← rRepeat (if n.toInt < 0 then 0 else n.toNat) (readEntry r)
  return es.foldl (fun m e => assignVals m e.1 e.2) old

/-- `SIOLCParameters::read`, SIOLCParameters.cc:9-50, into parameters that are not read-only. (What was read before an exception
is lost in the model; in the code it stays in the object that was being read.) -/
def Params.read (old : Params) : RProg Params := do
  let i ← readMap r32 old.ints
  let f ← readMap r32 old.floats
  let s ← readMap rStr old.strs
  return { old with ints := i, floats := f, strs := s }

end Lcio
