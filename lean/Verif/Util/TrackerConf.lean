import Verif.Util.BitField
/-
The encoding of cell ids of trackers, src/cpp/include/UTIL/LCTrackerConf.h.
-/
namespace Util
open Sio Lcio

/-- `std::string::npos`. -/
def findNpos : Nat := 2 ^ 64 - 1

/-- `s.find( t )` from position `i` on (`std::string`): the first position at which `t` is found. -/
def findFrom (t : Str) : Nat → Str → Nat
  | i, [] => if t = [] then i else findNpos
  | i, c :: s => if t.isPrefixOf (c :: s) then i else findFrom t (i + 1) s

/-- `s.find( t )`. -/
def strFind (s t : Str) : Nat := findFrom t 0 s

/-- The singleton `LCTrackerCellID`, LCTrackerConf.h:58-59 and 108-109. -/
structure TrackerConf where
  encoding : Str := str "subdet:5,side:-2,layer:9,module:8,sensor:8"
  accessed : Bool := false
  deriving DecidableEq

/-- Exceptions: `std::logic_error`, `std::runtime_error`, and those of `BitField64`. -/
inductive ConfErr where
  | logicError
  | runtimeError
  | other (e : Err)
  deriving DecidableEq

/-- `LCTrackerCellID::encoding_string`, LCTrackerConf.h:62-65. -/
def TrackerConf.encodingString (c : TrackerConf) : Str × TrackerConf :=
  let c := { c with accessed := true }
  (c.encoding, c)

/-- `LCTrackerCellID::setAccessed`, LCTrackerConf.h:109-111. -/
def TrackerConf.setAccessed (c : TrackerConf) : TrackerConf := { c with accessed := true }

/-- `LCTrackerCellID::valueString`, LCTrackerConf.h:68-73, for an `unsigned`. -/
def TrackerConf.valueString (c : TrackerConf) (val : W32) : Except ConfErr Str × TrackerConf :=
  let c := c.setAccessed
  let (s, c) := c.encodingString
  match BitField.make s with
  | .error e => (.error (.other e), c)
  | .ok b => (.ok (b.setValue (val.setWidth 64)).valueString, c)

/-- The check in `set_encoding_string`, LCTrackerConf.h:79-97. -/
def validEncoding (s : Str) : Bool :=
  let subdetPos := strFind s (str "subdet")
  let systemPos := strFind s (str "system")
  let sidePos := strFind s (str "side")
  let layerPos := strFind s (str "layer")
  let modulePos := strFind s (str "module")
  let sensorPos := strFind s (str "sensor")
  (subdetPos != findNpos || systemPos != findNpos) && sidePos != findNpos && layerPos != findNpos && modulePos != findNpos && sensorPos != findNpos &&
    ((decide (subdetPos < sidePos) || decide (systemPos < sidePos)) && decide (sidePos < layerPos) && decide (layerPos < modulePos) && decide (modulePos < sensorPos))

/-- `LCTrackerCellID::set_encoding_string`, LCTrackerConf.h:76-101. -/
def TrackerConf.setEncoding (c : TrackerConf) (s : Str) : Except ConfErr Unit × TrackerConf :=
  if c.accessed then (.error .logicError, c)
  else if !validEncoding s then (.error .runtimeError, c)
  else (.ok (), { c with encoding := s })

/-- Calls on the singleton. -/
inductive ConfCall where
  | encodingString
  | valueString (val : W32)
  | setAccessed
  | setEncoding (s : Str)

/-- One call: what it returns, and the singleton after it. -/
def TrackerConf.call (c : TrackerConf) : ConfCall → Except ConfErr (Option Str) × TrackerConf
  | .encodingString => let (s, c) := c.encodingString; (.ok (some s), c)
  | .valueString v => let (r, c) := c.valueString v; (r.map some, c)
  | .setAccessed => (.ok none, c.setAccessed)
  | .setEncoding s => let (r, c) := c.setEncoding s; (r.map fun _ => none, c)

/-- Calls one after the other: what they return, and the singleton after them. -/
def TrackerConf.calls (c : TrackerConf) : List ConfCall → List (Except ConfErr (Option Str)) × TrackerConf
  | [] => ([], c)
  | x :: xs =>
    let (r, c) := c.call x
    let (rs, c) := c.calls xs
    (r :: rs, c)

end Util
