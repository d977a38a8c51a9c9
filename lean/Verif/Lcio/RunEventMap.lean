import Verif.Sio.Device
import Verif.Lcio.OrdMap
/-
The map from run and event numbers to file positions.
-/
namespace Lcio
open Sio

/-- `SIO::RunEvent`, src/cpp/include/SIO/RunEventMap.h:14-25. The numbers are 32-bit signed integers. -/
structure RunEvent where
  run : W32
  evt : W32
  deriving DecidableEq, Repr

/-- `RunEvent(long64)`, RunEventMap.h:20. -/
def RunEvent.ofLong (x : W64) : RunEvent := ⟨((x.sshiftRight 32) &&& 0xffffffff).setWidth 32, (x &&& 0xffffffff).setWidth 32⟩

/-- `RunEvent::operator long64()`, RunEventMap.h:21. -/
def RunEvent.toLong (r : RunEvent) : W64 := (r.run.signExtend 64 <<< 32) ||| (r.evt.signExtend 64 &&& 0xffffffff)

/-- `operator<(const RunEvent&, const RunEvent&)`, src/cpp/src/SIO/RunEventMap.cc:7-19. -/
def RunEvent.lt (a b : RunEvent) : Bool :=
  if a.evt.toInt < 0 then (if b.evt.toInt < 0 then decide (a.run.toInt < b.run.toInt) else true)
  else if b.evt.toInt < 0 then false
  else if a.run = b.run then decide (a.evt.toInt < b.evt.toInt) else decide (a.run.toInt < b.run.toInt)

/-- `SIO::RunEventMap`, RunEventMap.h:37-99. The counters are `int`s in the code; their overflow is not modelled. -/
structure RunEventMap where
  map : List (RunEvent × W64) := []
  nRun : Nat := 0
  nEvt : Nat := 0
  deriving DecidableEq, Repr

/-- `RunEventMap::add`, RunEventMap.cc:32-48. The key takes the detour over `long64`. -/
def RunEventMap.add (m : RunEventMap) (re : RunEvent) (pos : W64) : RunEventMap :=
  let p := omAssign RunEvent.lt (RunEvent.ofLong re.toLong) pos m.map
  if p.2 then
    if re.evt.toInt > -1 then { m with map := p.1, nEvt := m.nEvt + 1 } else { m with map := p.1, nRun := m.nRun + 1 }
  else { m with map := p.1 }

/-- `RunEventMap::clear`, RunEventMap.h:93. -/
def RunEventMap.clear (_ : RunEventMap) : RunEventMap := {}

/-- `RunEventMap::npos`, RunEventMap.h:46. -/
def npos : W64 := -1

/-- `RunEventMap::getPosition`, RunEventMap.h:59-61 and RunEventMap.cc:54-57. -/
def RunEventMap.getPosition (m : RunEventMap) (re : RunEvent) : W64 :=
  (omFind RunEvent.lt (RunEvent.ofLong re.toLong) m.map).getD npos

/-- `RunEventMap::minRunEvent`, RunEventMap.cc:61-66. -/
def RunEventMap.minRunEvent (m : RunEventMap) : RunEvent := ((m.map.head?).map (·.1)).getD ⟨-1, -1⟩
/-- `RunEventMap::maxRunEvent`, RunEventMap.cc:70-76. -/
def RunEventMap.maxRunEvent (m : RunEventMap) : RunEvent := ((m.map.getLast?).map (·.1)).getD ⟨-1, -1⟩

/-- `LCReader::getRuns`, src/cpp/src/MT/LCReader.cc:236-246, once the event map is there. Running past the end of the map
or a failing assertion is an error. -/
def RunEventMap.getRuns (m : RunEventMap) : Except Err (List W32) :=
  if m.nRun > m.map.length then .error .ub
  else if (m.map.take m.nRun).all (fun e => e.1.evt == -1) then .ok ((m.map.take m.nRun).map fun e => e.1.run)
  else .error .ub

/-- `LCReader::getEvents`, LCReader.cc:250-264, likewise; the pairs (run, event) are flattened into one vector in the code. -/
def RunEventMap.getEvents (m : RunEventMap) : Except Err (List (W32 × W32)) :=
  if m.nRun + m.nEvt > m.map.length then .error .ub
  else
    let l := (m.map.drop m.nRun).take m.nEvt
    if l.all (fun e => e.1.evt != -1) then .ok (l.map fun e => (e.1.run, e.1.evt)) else .error .ub

end Lcio
