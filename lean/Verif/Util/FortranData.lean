import Verif.Util.Fortran
import Verif.Lcio.Setters
/-
The Fortran interface, src/cpp/src/CPPFORT: headers of events, hits and simulated particles that a program makes and gets. A program has arrays of fixed sizes; the pointers it gives are pointers to objects of the right type.
-/
namespace Fort
open Sio Lcio

/-! ## Headers of events -/

/-- `lcseteventheader`, lciof77apiext.cc:129-136. The time stamp is an `int`; `setTimeStamp` takes a `long`. The name is a C string of the program. -/
def setEventHeader (std : Std Pid) (ro : Bool) (e : EventHeader) (irun ievent timestamp : W32) (detname : Str) : Except Err EventHeader := do
  let e ← e.change std ro (.setRunNumber irun)
  let e ← e.change std ro (.setEventNumber ievent)
  let e ← e.change std ro (.setTimeStamp (timestamp.signExtend 64))
  e.change std ro (.setDetectorName (cut detname))

/-- `lcgeteventheader`, lciof77apiext.cc:138-148: the numbers, the time stamp (`long` to `int`) and the character array after the call. -/
def getEventHeader (e : EventHeader) (detname : List Byte) : Except Err (W32 × W32 × W32 × List Byte) := do
  let d ← strcpy detname 0 e.det
  return (e.run, e.evt, e.time.setWidth 32, d)

/-! ## Simulated tracker hits -/

/-- `lcaddsimtrackerhit`, lciof77apiext.cc:191-206: the hits of the collection after the call. -/
def addSimTrackerHit (col : List SimTrackerHit) (cellID0 : W32) (pos : List W64) (dEdx time : W32) (mcp : Nat) : Except Err (List SimTrackerHit) := do
  let h ← ({} : SimTrackerHit).change false (.setCellID0 cellID0)
  let h ← h.change false (.setPosition pos)
  let h ← h.change false (.setEDep dEdx)
  let h ← h.change false (.setTime time)
  let h ← h.change false (.setMCParticle mcp)
  return col ++ [h]

/-- `lcgetsimtrackerhit`, lciof77apiext.cc:208-219: cell id, array for the position, energy, time and particle after the call. `getCellID` is `getCellID0` (SimTrackerHitImpl.cc:40-42), `getdEdx` is `getEDep` (SimTrackerHitImpl.cc:48-52). -/
def getSimTrackerHit (col : List SimTrackerHit) (i : Int) (pos : List W64) : Except Err (W32 × List W64 × W32 × W32 × Nat) := do
  let h ← Access.simTrackerHits.get col i
  let pos ← putAll pos 0 h.pos
  return (h.cellID0, pos, h.eDep, h.time, h.particle)

/-! ## Simulated calorimeter hits -/

/-- `lcaddsimcalohit`, lciof77apiext.cc:222-231: the hits of the collection after the call; a pointer to the last one is returned. -/
def addSimCaloHit (col : List SimCalHit) (cellID0 cellID1 energy : W32) (pos : List W32) : Except Err (List SimCalHit) := do
  let h ← ({} : SimCalHit).change false (.setCellID0 cellID0)
  let h ← h.change false (.setCellID1 cellID1)
  let h ← h.change false (.setEnergy energy)
  let h ← h.change false (.setPosition pos)
  return col ++ [h]

/-- `lcschaddmcparticlecontribution`, lcsch.cc:94-99, for the `k`-th hit of the collection (counted from 0): the member function with a PDG code but without a length (SimCalorimeterHitImpl.h:190-198) is called. -/
def addContribution (col : List SimCalHit) (k : Nat) (mcp : Nat) (en t pdg : W32) : Except Err (List SimCalHit) :=
  match col[k]? with
  | none => .error .ub
  | some h => do
    let h ← h.change false (.addMCParticleContributionStep mcp en t 0 pdg none)
    return col.set k h

/-- `lcgetsimcalohit`, lciof77apiext.cc:234-254: cell ids, energy and array for the position after the call. -/
def getSimCaloHit (col : List SimCalHit) (i : Int) (pos : List W32) : Except Err (W32 × W32 × W32 × List W32) := do
  let h ← Access.simCaloHits.get col i
  let pos ← putAll pos 0 h.position
  return (h.cellID0, h.cellID1, h.energy, pos)

/-- `lcgetsimcalohitmccont`, lciof77apiext.cc:256-271: particle, energy, time and PDG code of a contribution. -/
def getContribution (h : SimCalHit) (i : Int) : Except Err (Nat × W32 × W32 × W32) := do
  let c ← Access.simCaloHitCont.get h.conts i
  return (c.particle, c.energy, c.time, c.pdg)

/-! ## Simulated particles -/

/-- The functions of lcmcp.cc that change one particle, by line. -/
inductive McpCall where
  /-- `lcmcpsetpdg`, 121-125 -/
  | pdg (v : W32)
  /-- `lcmcpsetgeneratorstatus`, 126-130 -/
  | generatorStatus (v : W32)
  /-- `lcmcpsetsimulatorstatus`, 131-135 -/
  | simulatorStatus (v : W32)
  /-- `lcmcpsetvertex`, 136-140 -/
  | vertex (v : List W64)
  /-- `lcmcpsetendpoint`, 141-145 -/
  | endpoint (v : List W64)
  /-- `lcmcpsetmomentum`, 146-150: an array of `float` -/
  | momentum (v : List W32)
  /-- `lcmcpsetmass`, 151-155 -/
  | mass (v : W32)
  /-- `lcmcpsetcharge`, 156-160 -/
  | charge (v : W32)
  /-- `lcmcpsetspin`, 161-165 -/
  | spin (v : List W32)
  /-- `lcmcpsetcolorflow`, 166-170 -/
  | colorFlow (v : List W32)

/-- The member function of `MCParticleImpl` that is called. -/
def McpCall.setter : McpCall → MCParticle.Setter
  | .pdg v => .setPDG v
  | .generatorStatus v => .setGeneratorStatus v
  | .simulatorStatus v => .setSimulatorStatus v
  | .vertex v => .setVertex v
  | .endpoint v => .setEndpoint v
  | .momentum v => .setMomentumFloat v
  | .mass v => .setMass v
  | .charge v => .setCharge v
  | .spin v => .setSpin v
  | .colorFlow v => .setColorFlow v

/-- Calls for one particle. -/
def particleAfter (std : Std Pid) (o : MCParticle) : List McpCall → Except Err MCParticle
  | [] => .ok o
  | c :: cs => match o.change std false c.setter with
    | .error e => .error e
    | .ok o => particleAfter std o cs

/-- What `lcgetmcparticledata` stores. -/
structure ParticleData where
  pdg : W32
  genStatus : W32
  simStatus : W32
  vertex : List W64
  momentum : List W32
  mass : W32
  charge : W32
  nDaughters : Int
  deriving DecidableEq, Repr

/-- `lcgetmcparticledata`, lciof77apiext.cc:168-186; `vertex` and `momentum` are the arrays of the program before and after the call. -/
def getParticleData (std : Std Pid) (o : MCParticle) (vertex : List W64) (momentum : List W32) : Except Err ParticleData := do
  let v ← putAll vertex 0 o.vertex
  let p ← putAll momentum 0 (o.p.map std.narrow)
  return { pdg := o.pdg, genStatus := o.genStatus, simStatus := o.simStatus, vertex := v, momentum := p, mass := std.narrow o.mass, charge := o.charge, nDaughters := o.daughters.length }

end Fort
