import Verif.Util.CellID
/-
Cell ids of ILD, src/cpp/include/UTIL/ILDConf.h and src/cpp/src/UTIL/ILDConf.cc.
-/
namespace Util
open Sio Lcio

/-- `ILDCellID0::encoder_string`, src/cpp/src/UTIL/ILDConf.cc:6. -/
def ildEncoding : Str := str "subdet:5,side:-2,layer:9,module:8,sensor:8"

/-- The constants of `ILDCellID0`, ILDConf.cc:16-20. -/
def ildSubdet : Nat := 0
def ildSide : Nat := 1
def ildLayer : Nat := 2
def ildModule : Nat := 3
def ildSensor : Nat := 4

/-- The constructor `ILDCellIDEncoder( col )`, src/cpp/include/UTIL/ILDConf.h:76-77. -/
def ildMake (k : Kind) (c : Collection) : Except Err (BitField × Collection) := encoderMake k ildEncoding c

/-- The constructor `ILDCellIDEncoder( cellIDEncoding, col )`, ILDConf.h:83-89: an exception or the bit field, and the collection after it. The constructor of the base class comes first; when it throws, it has
not changed the collection (only `BitField64` and the parameters of a read-only collection throw). -/
def ildMakeMore (k : Kind) (more : Str) (c : Collection) : Except Err BitField × Collection :=
  match encoderMake k (ildEncoding ++ str "," ++ more) c with
  | .error e => (.error e, c)
  | .ok (b, c') => if more.length = 0 then (.error .lcException, c') else (.ok b, c')

end Util
