import Verif.Lcio.Reopen
/-
The reader of the interface `IO::LCReader`: it keeps the event and the run header that it handed out last, and deletes them.
-/
namespace Lcio
open Sio

/-- `SIO::SIOReader`, src/cpp/include/SIO/SIOReader.h: the reader it wraps, `_currentEvent` and `_currentRun`, and the memory: objects that exist, by
their address, and the next address. Addresses are not used again. -/
structure SioReader where
  mt : Reader
  currentEvent : Option Nat := none
  currentRun : Option Nat := none
  events : List (Nat × EventData) := []
  runs : List (Nat × RunHeader) := []
  next : Nat := 0

/-- `delete` of an object: undefined if there is none at the address (any more). -/
def deleteAt {α : Type} (heap : List (Nat × α)) (a : Nat) : Except Err (List (Nat × α)) :=
  match heap.lookup a with
  | none => .error .ub
  | some _ => .ok (heap.filter fun x => x.1 ≠ a)

/-- `if( _currentEvent ) delete _currentEvent`, src/cpp/src/SIO/SIOReader.cc:84, 102, 127 and 145. -/
def deleteOld {α : Type} (heap : List (Nat × α)) : Option Nat → Except Err (List (Nat × α))
  | none => .ok heap
  | some a => deleteAt heap a

/-- `readNextEvent(accessMode)` and `readEvent(runNumber, evtNumber, accessMode)`, src/cpp/src/SIO/SIOReader.cc:101-110 and 144-153: the current event is deleted, then the reader is called, whose
result becomes the current event. If that throws, `_currentEvent` is as before. -/
def SioReader.takeEvent (s : SioReader) (call : Reader → Except Err (Option EventData) × Reader) : Except Err (Option Nat) × SioReader :=
  match deleteOld s.events s.currentEvent with
  | .error e => (.error e, s)
  | .ok events =>
    match call s.mt with
    | (.error e, mt) => (.error e, { s with events := events, mt := mt })
    | (.ok none, mt) => (.ok none, { s with events := events, mt := mt, currentEvent := none })
    | (.ok (some e), mt) => (.ok (some s.next), { s with events := (s.next, e) :: events, mt := mt, currentEvent := some s.next, next := s.next + 1 })

/-- `readNextRunHeader(accessMode)` and `readRunHeader(runNumber, accessMode)`, SIOReader.cc:83-92 and 126-135. -/
def SioReader.takeRun (s : SioReader) (call : Reader → Except Err (Option RunHeader) × Reader) : Except Err (Option Nat) × SioReader :=
  match deleteOld s.runs s.currentRun with
  | .error e => (.error e, s)
  | .ok runs =>
    match call s.mt with
    | (.error e, mt) => (.error e, { s with runs := runs, mt := mt })
    | (.ok none, mt) => (.ok none, { s with runs := runs, mt := mt, currentRun := none })
    | (.ok (some h), mt) => (.ok (some s.next), { s with runs := (s.next, h) :: runs, mt := mt, currentRun := some s.next, next := s.next + 1 })

/-- The calls of the interface that read, and the others, which only call the reader: `open`, `close`, `skipNEvents`, `getNumberOfEvents` and so on, SIOReader.cc:41-75, 114-116 and 157-159. The latter are
given by what they do with the reader. -/
inductive SioCall where
  | nextEvent
  | event (run evt : W32)
  | nextRun
  | run (run : W32)
  | other (f : Reader → Except Err Unit × Reader)

/-- Whether a call reads an event. -/
def SioCall.isEvent : SioCall → Bool
  | .nextEvent | .event _ _ => true
  | _ => false

/-- Whether a call reads a run header. -/
def SioCall.isRun : SioCall → Bool
  | .nextRun | .run _ => true
  | _ => false

/-- A call; what is returned is the address of an event or run header, or a null pointer. -/
def SioReader.call (cfg : RConfig) (s : SioReader) : SioCall → Except Err (Option Nat) × SioReader
  | .nextEvent => s.takeEvent (·.readNextEvent cfg)
  | .event run evt => s.takeEvent (·.readEvent cfg run evt)
  | .nextRun => s.takeRun (·.readNextRunHeader cfg)
  | .run run => s.takeRun (·.readRunHeader cfg run)
  | .other f => match f s.mt with
    | (.error e, mt) => (.error e, { s with mt := mt })
    | (.ok (), mt) => (.ok none, { s with mt := mt })

/-- `virtual ~SIOReader()`, src/cpp/src/SIO/SIOReader.cc:29-31, has nothing to do: what exists after it. -/
def SioReader.destroy (s : SioReader) : List (Nat × EventData) × List (Nat × RunHeader) := (s.events, s.runs)

end Lcio

namespace Spec
open Sio Lcio

/-- The reader after some calls; exceptions are caught, and the calls go on. -/
def afterCalls (cfg : RConfig) : List SioCall → SioReader → SioReader
  | [], s => s
  | c :: cs, s => afterCalls cfg cs (s.call cfg c).2

/-- What the calls return. -/
def results (cfg : RConfig) : List SioCall → SioReader → List (Except Err (Option Nat))
  | [], _ => []
  | c :: cs, s => (s.call cfg c).1 :: results cfg cs (s.call cfg c).2

end Spec
