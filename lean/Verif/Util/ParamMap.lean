import Verif.Lcio.Params
/-
Maps from names to numbers in the parameters of collections, src/cpp/src/UTIL/CollectionParameterMap.cc, for any names of the two parameters.
-/
namespace Util
open Sio Lcio

/-- `CollectionParameterMap`, CollectionParameterMap.h:58-61: the names of the parameters, whether there is a collection to update, and the map. -/
structure ParamMap where
  keyName : Str
  valueName : Str
  updates : Bool
  map : List (Str × W32)
  deriving DecidableEq

/-- `CollectionParameterMap::init`, CollectionParameterMap.cc:33-60. -/
def paramMapInit (keyName valueName : Str) (p : Params) : Except Err (List (Str × W32)) :=
  let keys := getVals p.strs keyName []
  let values := getVals p.ints valueName []
  if keys.length ≠ values.length then .error .lcException
  else .ok ((keys.zip values).foldl (fun m e => omInsert strLt e.1 e.2 m) [])

/-- The constructors, CollectionParameterMap.cc:12-31: for a `const` collection nothing is updated. -/
def ParamMap.new (keyName valueName : Str) (isConst : Bool) (p : Params) : Except Err ParamMap := do
  let map ← paramMapInit keyName valueName p
  return { keyName, valueName, updates := !isConst, map }

/-- `CollectionParameterMap::~CollectionParameterMap`, CollectionParameterMap.cc:63-91: the parameters then. An exception leaves a destructor, which ends the program. -/
def ParamMap.destroy (h : ParamMap) (p : Params) : Except Err Params :=
  if h.updates then do
    let p ← p.setStrs h.keyName (h.map.map (·.1))
    p.setInts h.valueName (h.map.map (·.2))
  else .ok p

/-- What users do with `map()`, CollectionParameterMap.h:49: `m[ k ] = v`, `m.erase( k )`. -/
inductive MapEdit where
  | put (k : Str) (v : W32)
  | erase (k : Str)

def ParamMap.edit (h : ParamMap) : MapEdit → ParamMap
  | .put k v => { h with map := (omAssign strLt k v h.map).1 }
  | .erase k => { h with map := omErase strLt k h.map }

/-- One use of the class: a handle is made, its map is edited, and it goes out of scope. The map found and the parameters then. -/
def paramMapUse (keyName valueName : Str) (isConst : Bool) (edits : List MapEdit) (p : Params) : Except Err (List (Str × W32) × Params) := do
  let h ← ParamMap.new keyName valueName isConst p
  let p ← (edits.foldl ParamMap.edit h).destroy p
  return (h.map, p)

/-- One use after the other. -/
def paramMapUses (keyName valueName : Str) : List (Bool × List MapEdit) → Params → Except Err (List (List (Str × W32)) × Params)
  | [], p => .ok ([], p)
  | (c, edits) :: us, p => do
    let (m, p) ← paramMapUse keyName valueName c edits p
    let (ms, p) ← paramMapUses keyName valueName us p
    return (m :: ms, p)

end Util
