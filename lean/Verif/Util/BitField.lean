import Verif.Util.Text
/-
Bit fields.
-/
namespace Util
open Sio Lcio

/-- `BitFieldValue` without the reference to the 64 bit value, src/cpp/include/UTIL/BitField64.h:100-111. -/
structure Field where
  name : Str
  offset : Nat
  width : Nat
  signed : Bool
  mask : W64
  minVal : Int
  maxVal : Int
  deriving DecidableEq, Repr

/-- The constructor of `BitFieldValue`, src/cpp/src/UTIL/BitField64.cc:11-53. `abs` of the smallest `int` is undefined. So is a shift of an `int` (`long long`) by 32 (64) or more bits, and
`(1LL << 63) - 1`, which overflows. Conversions of 64 to 32 bits and shifts into the sign bit are as gcc and clang define them. -/
def mkField (name : Str) (offset : Nat) (signedWidth : Int) : Except Err Field :=
  if signedWidth = -2 ^ 31 then .error .ub
  else
    let width := signedWidth.natAbs
    if offset > 63 ∨ offset + width > 64 then .error .lcException
    else if 63 ≤ width then .error .ub
    else
      let mask : W64 := (((1 : W64) <<< width) - 1) <<< offset
      if signedWidth < 0 then
        .ok { name := name, offset := offset, width := width, signed := true, mask := mask,
              minVal := ((((1 : W64) <<< (width - 1)) - ((1 : W64) <<< width)).setWidth 32).toInt
              maxVal := ((((1 : W64) <<< (width - 1)) - 1).setWidth 32).toInt }
      else if 32 ≤ width then .error .ub
      else .ok { name := name, offset := offset, width := width, signed := false, mask := mask, minVal := 0, maxVal := ((1 : W32) <<< width).toInt }

/-- `BitFieldValue::value`, BitField64.cc:56-73, for the 64 bits `b`. -/
def Field.value (f : Field) (b : W64) : W64 :=
  let val := (b &&& f.mask) >>> f.offset
  if f.signed then
    if (val &&& ((1 : W64) <<< (f.width - 1))) != 0 then val - ((1 : W64) <<< f.width) else val
  else val

/-- `BitFieldValue::operator=`, BitField64.cc:75-92: the new 64 bits. (A shift of a negative number is as gcc and clang define it.) -/
def Field.assign (f : Field) (b : W64) (x : W64) : Except Err W64 :=
  if x.toInt < f.minVal ∨ f.maxVal < x.toInt then .error .lcException
  else .ok ((b &&& ~~~f.mask) ||| ((x <<< f.offset) &&& f.mask))

/-- `BitField64`, BitField64.h:253-258. -/
structure BitField where
  fields : List Field := []
  value : W64 := 0
  map : List (Str × Nat) := []
  joined : W64 := 0
  deriving DecidableEq, Repr

/-- `BitField64::addField`, BitField64.cc:172-193. -/
def BitField.addField (b : BitField) (name : Str) (offset : Nat) (width : Int) : Except Err BitField :=
  match mkField name offset width with
  | .error e => .error e
  | .ok f =>
    if (b.joined &&& f.mask) != 0 then .error .lcException
    else .ok { b with fields := b.fields ++ [f], map := (omAssign strLt name b.fields.length b.map).1, joined := b.joined ||| f.mask }

/-- `int width = atol(...)`: the low 32 bits. -/
def toInt32 (n : Int) : Int := (BitVec.ofInt 32 n).toInt
/-- `unsigned offset = atol(...)`. -/
def toUInt32 (n : Int) : Nat := (BitVec.ofInt 32 n).toNat

/-- One round of the loop in `BitField64::init`, BitField64.cc:205-247: the name, offset and width that a field descriptor gives, and the offset for the next. -/
def parseField (offset : Nat) (d : Str) : Except Err (Str × Nat × Int × Nat) :=
  match tokens 58 d with
  | [name, w] => do
    let w ← atol w
    let width := toInt32 w
    if width = -2 ^ 31 then .error .ub
    else .ok (name, offset, width, (offset + width.natAbs) % 2 ^ 32)
  | [name, o, w] => do
    let o ← atol o
    let w ← atol w
    let width := toInt32 w
    if width = -2 ^ 31 then .error .ub
    else .ok (name, toUInt32 o, width, (toUInt32 o + width.natAbs) % 2 ^ 32)
  | _ => .error .lcException

def initLoop : Nat → BitField → List Str → Except Err BitField
  | _, b, [] => .ok b
  | offset, b, d :: ds => match parseField offset d with
    | .error e => .error e
    | .ok (name, o, width, next) => match b.addField name o width with
      | .error e => .error e
      | .ok b => initLoop next b ds

/-- The constructor of `BitField64`, BitField64.h:160-163 and BitField64.cc:195-248. -/
def BitField.make (init : Str) : Except Err BitField := initLoop 0 {} (tokens 44 init)

/-- `b[i]` as a number, BitField64.h:180-188: `std::vector::at` throws. -/
def BitField.get (b : BitField) (i : Nat) : Except Err W64 :=
  match b.fields[i]? with
  | none => .error .outOfRange
  | some f => .ok (f.value b.value)

/-- `b[i] = x`: an exception, and the bit field after it. -/
def BitField.set (b : BitField) (i : Nat) (x : W64) : Except Err Unit × BitField :=
  match b.fields[i]? with
  | none => (.error .outOfRange, b)
  | some f => match f.assign b.value x with
    | .error e => (.error e, b)
    | .ok v => (.ok (), { b with value := v })

/-- `BitField64::index`, BitField64.cc:97-107. -/
def BitField.index (b : BitField) (name : Str) : Except Err Nat :=
  match omFind strLt name b.map with
  | none => .error .lcException
  | some i => .ok i

/-- `b[name]` as a number, BitField64.h:204-212. -/
def BitField.getNamed (b : BitField) (name : Str) : Except Err W64 :=
  match b.index name with
  | .error e => .error e
  | .ok i => b.get i

/-- `b[name] = x`. -/
def BitField.setNamed (b : BitField) (name : Str) (x : W64) : Except Err Unit × BitField :=
  match b.index name with
  | .error e => (.error e, b)
  | .ok i => b.set i x

/-- `BitField64::setValue`, BitField64.h:172. -/
def BitField.setValue (b : BitField) (v : W64) : BitField := { b with value := v }

/-- `BitField64::highestBit`, BitField64.cc:109-119. -/
def BitField.highestBit (b : BitField) : Nat := b.fields.foldl (fun hb f => if hb < f.offset + f.width then f.offset + f.width else hb) 0

/-- `lowWord` and `highWord`, BitField64.h:222-227. -/
def BitField.lowWord (b : BitField) : W32 := b.value.setWidth 32
def BitField.highWord (b : BitField) : W32 := (b.value >>> 32).setWidth 32

/-- One field in `fieldDescription`, BitField64.cc:140-152. -/
def Field.description (f : Field) : Str := f.name ++ str ":" ++ dec f.offset ++ str ":" ++ (if f.signed then str "-" else []) ++ dec f.width

/-- With commas between. -/
def commas : List Str → Str
  | [] => []
  | [s] => s
  | s :: ss => s ++ str "," ++ commas ss

/-- `BitField64::fieldDescription`, BitField64.cc:136-170. -/
def BitField.fieldDescription (b : BitField) : Str := commas (b.fields.map Field.description)

/-- `BitField64::valueString`, BitField64.cc:122-134. -/
def BitField.valueString (b : BitField) : Str := commas (b.fields.map fun f => f.name ++ str ":" ++ decInt (f.value b.value).toInt)

end Util
