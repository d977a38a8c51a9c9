import Verif.Lcio.MtWriter
import Verif.Lcio.FullDisk
/-
The writer for several threads on a disk that becomes full.
-/
namespace Lcio
open Sio Spec

/-- A `MT::LCWriter` and the threads using it, as `MtState`, src/cpp/include/MT/LCWriter.h:103-113, with a file that cannot become longer than some limit. -/
structure MtDisk where
  stream : Option LimStream
  ra : Option RaMgr
  maxBuf : Nat := 2465792
  level : Int := -1
  owner : Option Nat := none
  threads : Nat → MtThread

/-- Replace a thread. (Not a function of the code.) -/
def MtDisk.setThread (s : MtDisk) (t : Nat) (th : MtThread) : MtDisk := { s with threads := fun u => if u = t then th else s.threads u }

/-- One step in the critical section, as `MtStep.exec`, with the tests of the stream in `api::write_record`: it throws `bad_state` at its beginning, before `tellp` (sio/src/api.cc:512-518 and 545-554; for the second
record of an event the test was just made), and `io_failure` after each `write` (api.cc:519-534 and 555-574). -/
def MtStep.execDisk (i : MtStep) (stream : Option LimStream) (ra : Option RaMgr) (pos : Nat) : Option LimStream × Option RaMgr × Nat × Except Err Unit :=
  match i with
  | .check => (stream, ra, pos, if stream.isNone then .error .ioException else .ok ())
  | .tell => match stream with
    | none => (stream, ra, pos, .error .badState)
    | some t => if !t.good then (stream, ra, pos, .error .badState) else (stream, ra, t.s.pos, .ok ())
  | .write b => match stream with
    | none => (stream, ra, pos, .error .badState)
    | some t => (some (t.write b), ra, pos, if (t.write b).good then .ok () else .error .ioFailure)
  | .add k => match ra with
    | none => (stream, ra, pos, .error .ub)
    | some m => (stream, some (m.add k pos), pos, .ok ())
  | .grow _ => (stream, ra, pos, .ok ())

/-- A step of a thread, as `MtState.step`: LCWriter.cc:90-197. An exception leads to the end of the critical section, which releases the mutex (`std::lock_guard`). -/
def MtDisk.step (codec : Codec) (std : Std Pid) (t : Nat) (s : MtDisk) : MtDisk :=
  let th := s.threads t
  match th.phase with
  | .idle => match th.todo with
    | [] => s
    | call :: todo => s.setThread t { th with todo := todo, phase := .sized call s.maxBuf }
  | .sized call n => match encodeAll n (call.jobs std) with
    | .error e => s.setThread t { th with phase := .idle, results := th.results ++ [(call, .error e)] }
    | .ok recs => s.setThread t { th with phase := .encoded call n recs }
  | .encoded call n recs => match packAll codec (s.level != 0) recs with
    | .error e => s.setThread t { th with phase := .idle, results := th.results ++ [(call, .error e)] }
    | .ok parts => s.setThread t { th with phase := .waiting call n (s.level != 0) (call.script parts ((recs.getLast?.map (·.2.length)).getD 0)) }
  | .waiting call n c script => match s.owner with
    | some _ => s
    | none => { s.setThread t { th with phase := .inside call n c script 0 (.ok ()) } with owner := some t }
  | .inside call n c script pos out => match script with
    | [] => { s.setThread t { th with phase := .idle, results := th.results ++ [(call, out)] } with owner := none }
    | i :: script => match i.execDisk s.stream s.ra pos with
      | (stream, ra, pos, .ok ()) =>
        { s.setThread t { th with phase := .inside call n c script pos out } with stream := stream, ra := ra, maxBuf := i.grown s.maxBuf }
      | (stream, ra, pos, .error e) => { s.setThread t { th with phase := .inside call n c [] pos (.error e) } with stream := stream, ra := ra }

/-- What happens next, as `MtState.next`: a step of a thread, or `setCompressionLevel` (LCWriter.cc:84-86). -/
def MtDisk.next (codec : Codec) (std : Std Pid) (s : MtDisk) : MtChoice → MtDisk
  | .thread t => s.step codec std t
  | .level n => { s with level := n }

/-- A schedule: steps of the threads in any order. -/
def MtDisk.run (codec : Codec) (std : Std Pid) (s : MtDisk) (schedule : List MtChoice) : MtDisk := schedule.foldl (MtDisk.next codec std) s

/-- `MT::LCWriter::close`, LCWriter.cc:202-208: what it returns, and what is in the file then. If the records cannot be written the exception leaves the stream open; what is in the file is the same. -/
def MtDisk.close (s : MtDisk) : Except Err Unit × Option (List Byte) :=
  match s.ra with
  | none => (.error .ub, none)
  | some m => ((LimWriter.close ⟨s.stream, m⟩).1, (LimWriter.close ⟨s.stream, m⟩).2.2)

/-- A writer that has opened a file, which some threads are going to use, on a disk with room for some bytes of the file. -/
def diskStart (limit : Nat) (w : Writer) (prog : Nat → List MtCall) (maxBuf : Nat) (level : Int) : MtDisk :=
  { stream := w.stream.map fun o => { s := o, limit := limit }, ra := some w.ra, maxBuf := maxBuf, level := level, threads := fun t => { todo := prog t } }

end Lcio
