import Verif.Lcio.Reader
/-
Numbers of events and runs, and lists of them.
-/
namespace Lcio
open Sio

/-- `LCReader::getNumberOfEvents`, src/cpp/src/MT/LCReader.cc:214-221. -/
def Reader.getNumberOfEvents (cfg : RConfig) (r : Reader) : Except Err Nat × Reader :=
  match r.needMap cfg with
  | (.error e, r) => (.error e, r)
  | (.ok (), r) => (.ok r.ra.map.nEvt, r)

/-- `LCReader::getNumberOfRuns`, LCReader.cc:225-232. -/
def Reader.getNumberOfRuns (cfg : RConfig) (r : Reader) : Except Err Nat × Reader :=
  match r.needMap cfg with
  | (.error e, r) => (.error e, r)
  | (.ok (), r) => (.ok r.ra.map.nRun, r)

/-- `LCReader::getRuns`, LCReader.cc:236-246. -/
def Reader.getRuns (cfg : RConfig) (r : Reader) : Except Err (List W32) × Reader :=
  match r.getNumberOfRuns cfg with
  | (.error e, r) => (.error e, r)
  | (.ok _, r) => (r.ra.map.getRuns, r)

/-- `LCReader::getEvents`, LCReader.cc:250-265. -/
def Reader.getEvents (cfg : RConfig) (r : Reader) : Except Err (List (W32 × W32)) × Reader :=
  match r.getNumberOfRuns cfg with
  | (.error e, r) => (.error e, r)
  | (.ok _, r) => match r.getNumberOfEvents cfg with
    | (.error e, r) => (.error e, r)
    | (.ok _, r) => (r.ra.map.getEvents, r)

end Lcio
