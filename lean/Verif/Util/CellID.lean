import Verif.Util.BitField
import Verif.Util.Flags
import Verif.Lcio.Collection
/-
Cell IDs.
-/
namespace Util
open Sio Lcio

/-- `CellIDEncoder_cellID1Bit<T>`, src/cpp/include/UTIL/CellIDEncoder.h:31-66 and src/cpp/src/UTIL/CellIDEncoder.cc:15-43, with the numbers of the bits from
src/f77/lciof77api.inc:295-310 (the header with the C++ constants is generated and not in the repository). -/
def cellID1Bit : Kind → Int
  | .simCalHit => 29
  | .rawCalHit => 29
  | .calHit => 29
  | .trackerData => 31
  | .trackerPulse => 31
  | .trackerRawData => 31
  | .simTrackerHit => 29
  | .trackerHit => 31
  | .trackerHitPlane => 31
  | .trackerHitZCylinder => 31
  | _ => -1

/-- `getCellID0` and `getCellID1` of the hit classes. -/
def cellIDs : Obj → Option (W32 × W32)
  | .simCalHit o => some (o.cellID0, o.cellID1)
  | .rawCalHit o => some (o.cellID0, o.cellID1)
  | .calHit o => some (o.cellID0, o.cellID1)
  | .trackerData o => some (o.cellID0, o.cellID1)
  | .trackerPulse o => some (o.cellID0, o.cellID1)
  | .trackerRawData o => some (o.cellID0, o.cellID1)
  | .simTrackerHit o => some (o.cellID0, o.cellID1)
  | .trackerHit o => some (o.cellID0, o.cellID1)
  | .trackerHitPlane o => some (o.cellID0, o.cellID1)
  | .trackerHitZCylinder o => some (o.cellID0, o.cellID1)
  | _ => none

/-- `CellIDEncoder_setCellID`, CellIDEncoder.h:70-76. The setters check the access mode of the object, which is not modelled. -/
def setCellIDs (low high : W32) : Obj → Obj
  | .simCalHit o => .simCalHit { o with cellID0 := low, cellID1 := high }
  | .rawCalHit o => .rawCalHit { o with cellID0 := low, cellID1 := high }
  | .calHit o => .calHit { o with cellID0 := low, cellID1 := high }
  | .trackerData o => .trackerData { o with cellID0 := low, cellID1 := high }
  | .trackerPulse o => .trackerPulse { o with cellID0 := low, cellID1 := high }
  | .trackerRawData o => .trackerRawData { o with cellID0 := low, cellID1 := high }
  | .simTrackerHit o => .simTrackerHit { o with cellID0 := low, cellID1 := high }
  | .trackerHit o => .trackerHit { o with cellID0 := low, cellID1 := high }
  | .trackerHitPlane o => .trackerHitPlane { o with cellID0 := low, cellID1 := high }
  | .trackerHitZCylinder o => .trackerHitZCylinder { o with cellID0 := low, cellID1 := high }
  | o => o

/-- `CellIDEncoder::setCellID`, CellIDEncoder.h:120-123. -/
def BitField.setCellID (b : BitField) (o : Obj) : Obj := setCellIDs b.lowWord b.highWord o

/-- `LCIO::CellIDEncoding`, src/cpp/src/IMPL/LCIO.cc. -/
def encodingKey : Str := str "CellIDEncoding"

/-- `CellIDEncoder::setCellIDFlag`, CellIDEncoder.h:127-147. -/
def setCellIDFlag (k : Kind) (b : BitField) (flag : W32) : Except Err W32 :=
  if 0 ≤ cellID1Bit k then
    if b.highestBit > 31 then flagSetBit flag (cellID1Bit k) else flagUnsetBit flag (cellID1Bit k)
  else .ok flag

/-- The constructor of `CellIDEncoder`, CellIDEncoder.h:108-118: the bit field, and the collection after it. -/
def encoderMake (k : Kind) (init : Str) (c : Collection) : Except Err (BitField × Collection) := do
  let b ← BitField.make init
  let params ← c.params.setStr encodingKey init
  let flag ← setCellIDFlag k b c.flag
  return (b, { c with params := params, flag := flag })

/-- `CellIDDecoder`, src/cpp/include/UTIL/CellIDDecoder.h:102-104: bit field and address of the last hit. -/
structure Decoder where
  b : BitField
  oldHit : Nat := 0
  deriving DecidableEq, Repr

/-- `_defaultEncoding`, CellIDDecoder.h:117-119. -/
def defaultEncoding : Str := str "M:3,S-1:3,I:9,J:9,K-1:6"

/-- The constructor with an encoding string, CellIDDecoder.h:39-46. -/
def decoderOfString (init : Str) : Except Err Decoder :=
  if init.length = 0 then .error .lcException
  else match BitField.make init with
    | .error e => .error e
    | .ok b => .ok { b := b }

/-- The constructor with a collection, or a null pointer, CellIDDecoder.h:50-71. -/
def decoderOfCollection (c : Option Collection) : Except Err Decoder := do
  let init ← match c with
    | none => .ok []
    | some c => getVal [] c.params.strs encodingKey
  let init := if init.length = 0 then defaultEncoding else init
  let b ← BitField.make init
  return { b := b }

/-- `CellIDDecoder::operator()`, CellIDDecoder.h:84-98, for a hit at address `hit` (0: null pointer) with the two words given. -/
def Decoder.call (d : Decoder) (hit : Nat) (id0 id1 : W32) : Decoder :=
  if hit ≠ d.oldHit ∧ hit ≠ 0 then
    { b := d.b.setValue (((id0 &&& 0xffffffff).setWidth 64) ||| ((id1.signExtend 64) <<< 32)), oldHit := hit }
  else d

end Util
