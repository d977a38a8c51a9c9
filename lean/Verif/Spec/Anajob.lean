import Verif.Spec.Sessions
/-
Specification of what `anajob` prints.
-/
namespace Spec
open Sio Lcio

def asRun : Option Delivery → Option RunHeader
  | some (.run h) => some h
  | _ => none

def asEvent : Option Delivery → Option EventData
  | some (.event e) => some e
  | _ => none

/-- The run headers in some files, as they are read. -/
def runHeadersIn (cfg : RConfig) (its : List (Str × Put)) : List RunHeader := its.filterMap fun x => asRun (delivery cfg x.1 x.2)

/-- The events in some files, as they are read. -/
def eventDataIn (cfg : RConfig) (its : List (Str × Put)) : List EventData := its.filterMap fun x => asEvent (delivery cfg x.1 x.2)

end Spec
