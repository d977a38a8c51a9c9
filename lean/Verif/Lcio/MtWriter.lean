import Verif.Lcio.Writer
/-
The writer for several threads.
-/
namespace Lcio
open Sio Spec

/-- A call of `MT::LCWriter::writeRunHeader` or `MT::LCWriter::writeEvent` (without a selection of collections). -/
inductive MtCall where
  | run (h : RunHeader)
  | event (h : EventHeader) (cols : List (Str × Collection))

/-- The records that a call writes. -/
def MtCall.jobs (std : Std Pid) : MtCall → List (Str × List WBlock)
  | .run h => [(runRecordName, [h.block])]
  | .event h cols => [(headerRecordName, [EventHeader.block [] { h with cols := colHeads cols }]), (eventRecordName, eventBlocks std [] cols)]

/-- The key under which it is added to the event map, src/cpp/src/MT/LCWriter.cc:115, 130, 177 and 192. -/
def MtCall.key : MtCall → RunEvent
  | .run h => ⟨h.run, -1⟩
  | .event h _ => ⟨h.run, h.evt⟩

/-- Write the records into buffers of the given size, LCWriter.cc:93-97 and 148-157; `sio::buffer(len)` is filled with zeros (sio/src/buffer.cc:159-164). -/
def encodeAll (n : Nat) : List (Str × List WBlock) → Except Err (List (RecordInfo × List Byte))
  | [] => .ok []
  | j :: js => match writeRecord j.1 (zeros n) j.2 0 with
    | .error e => .error e
    | .ok r => match encodeAll n js with
      | .error e => .error e
      | .ok rs => .ok (r :: rs)

/-- Zeros at the end of a record, sio/src/api.cc:524-530 and 564-570. -/
def padOf (len : Nat) : List (List Byte) := if padBytes len > 0 then [zeros (padBytes len)] else []

/-- What is given to `stream.write` for a record, one after the other: LCWriter.cc:99-113 or 128, 160-175 or 189-190, and
sio/src/api.cc:508-577. -/
def packOne (codec : Codec) (compress : Bool) (r : RecordInfo × List Byte) : Except Err (List (List Byte)) :=
  if compress then
    match compressRecord codec r.1 r.2 with
    | .error e => .error e
    | .ok (info, rec, comp) => match spanOf rec 0 info.headerLength with
      | .error e => .error e
      | .ok hdr => .ok ([hdr, comp] ++ padOf comp.length)
  else .ok (r.2 :: padOf r.2.length)

def packAll (codec : Codec) (compress : Bool) : List (RecordInfo × List Byte) → Except Err (List (List (List Byte)))
  | [] => .ok []
  | r :: rs => match packOne codec compress r with
    | .error e => .error e
    | .ok p => match packAll codec compress rs with
      | .error e => .error e
      | .ok ps => .ok (p :: ps)

/-- The steps of a thread while it holds the mutex, LCWriter.cc:109-120, 124-135, 169-182 and 185-197. -/
inductive MtStep where
  /-- throw if the stream is not open -/
  | check
  /-- `rec_info._file_start = stream.tellp()` for the first record, sio/src/api.cc:518 and 554 -/
  | tell
  /-- `stream.write` -/
  | write (b : List Byte)
  /-- `_raMgr->add` -/
  | add (k : RunEvent)
  /-- the update of `_maxBufferSize` -/
  | grow (n : Nat)

/-- All steps of a call. The buffer whose size is taken for `_maxBufferSize` is the last one. -/
def MtCall.script (call : MtCall) (parts : List (List (List Byte))) (size : Nat) : List MtStep :=
  [.check, .tell] ++ parts.flatten.map .write ++ [.add call.key, .grow size]

/-- Where a thread is in a call. -/
inductive MtPhase where
  | idle
  /-- `_maxBufferSize` was loaded -/
  | sized (call : MtCall) (n : Nat)
  /-- the records are in the buffers -/
  | encoded (call : MtCall) (n : Nat) (recs : List (RecordInfo × List Byte))
  /-- `_compressionLevel` was loaded, and the records were compressed if it is not 0 -/
  | waiting (call : MtCall) (n : Nat) (compress : Bool) (script : List MtStep)
  /-- the thread holds the mutex; with the position of the first record, and the exception if one was thrown -/
  | inside (call : MtCall) (n : Nat) (compress : Bool) (script : List MtStep) (pos : Nat) (out : Except Err Unit)

/-- A thread: the calls it will make, where it is, and what it has done: the calls with their results. -/
structure MtThread where
  todo : List MtCall := []
  phase : MtPhase := .idle
  results : List (MtCall × Except Err Unit) := []

/-- A `MT::LCWriter`, src/cpp/include/MT/LCWriter.h:103-113, and the threads using it. The mutex is free or held by a thread. -/
structure MtState where
  stream : Option OStream
  ra : Option RaMgr
  maxBuf : Nat := 2465792
  level : Int := -1
  owner : Option Nat := none
  threads : Nat → MtThread

def MtState.setThread (s : MtState) (t : Nat) (th : MtThread) : MtState := { s with threads := fun u => if u = t then th else s.threads u }

/-- One step in the critical section: the stream, the random access manager, the position of the first record, and an exception. A null pointer `_raMgr` is undefined
behaviour. (The update of `_maxBufferSize` is a separate function.) -/
def MtStep.exec (i : MtStep) (stream : Option OStream) (ra : Option RaMgr) (pos : Nat) : Option OStream × Option RaMgr × Nat × Except Err Unit :=
  match i with
  | .check => (stream, ra, pos, if stream.isNone then .error .ioException else .ok ())
  | .tell => (stream, ra, (stream.map (·.pos)).getD pos, .ok ())
  | .write b => (stream.map (·.write b), ra, pos, .ok ())
  | .add k => match ra with
    | none => (stream, ra, pos, .error .ub)
    | some m => (stream, some (m.add k pos), pos, .ok ())
  | .grow _ => (stream, ra, pos, .ok ())

def MtStep.grown (i : MtStep) (maxBuf : Nat) : Nat :=
  match i with
  | .grow n => if maxBuf < n then n % 2 ^ 32 else maxBuf
  | _ => maxBuf

/-- A step of a thread; nothing happens if it has nothing to do or waits for the mutex. An exception leads to the end of the critical section, which always releases the
mutex (`std::lock_guard`). -/
def MtState.step (codec : Codec) (std : Std Pid) (t : Nat) (s : MtState) : MtState :=
  let th := s.threads t
  match th.phase with
  | .idle => match th.todo with
    | [] => s
    | call :: todo => s.setThread t { th with todo := todo, phase := .sized call s.maxBuf }
  | .sized call n => match encodeAll n (call.jobs std) with
    | .error e => s.setThread t { th with phase := .idle, results := th.results ++ [(call, .error e)] }
    | .ok recs => s.setThread t { th with phase := .encoded call n recs }
  | .encoded call n recs => match packAll codec (s.level != 0) recs with
    | .error e => s.setThread t { th with phase := .idle, results := th.results ++ [(call, .error e)] }
    | .ok parts => s.setThread t { th with phase := .waiting call n (s.level != 0) (call.script parts ((recs.getLast?.map (·.2.length)).getD 0)) }
  | .waiting call n c script => match s.owner with
    | some _ => s
    | none => { s.setThread t { th with phase := .inside call n c script 0 (.ok ()) } with owner := some t }
  | .inside call n c script pos out => match script with
    | [] => { s.setThread t { th with phase := .idle, results := th.results ++ [(call, out)] } with owner := none }
    | i :: script => match i.exec s.stream s.ra pos with
      | (stream, ra, pos, .ok ()) =>
        { s.setThread t { th with phase := .inside call n c script pos out } with stream := stream, ra := ra, maxBuf := i.grown s.maxBuf }
      | (stream, ra, pos, .error e) => { s.setThread t { th with phase := .inside call n c [] pos (.error e) } with stream := stream, ra := ra }

/-- What happens next: a step of a thread, or a call of `setCompressionLevel` (LCWriter.cc:84-86) by any thread. -/
inductive MtChoice where
  | thread (t : Nat)
  | level (n : Int)

def MtState.next (codec : Codec) (std : Std Pid) (s : MtState) : MtChoice → MtState
  | .thread t => s.step codec std t
  | .level n => { s with level := n }

/-- A schedule: steps of the threads in any order. -/
def MtState.run (codec : Codec) (std : Std Pid) (s : MtState) (schedule : List MtChoice) : MtState := schedule.foldl (MtState.next codec std) s

/-- `MT::LCWriter::close`, LCWriter.cc:202-208. Differs from `SIOWriter::close` only in that the random access manager is dropped. -/
def MtState.close (s : MtState) : Except Err (Option (List Byte)) :=
  match s.ra with
  | none => .error .ub
  | some m => match Writer.close ⟨s.stream, m⟩ with
    | .error e => .error e
    | .ok (_, file) => .ok file

end Lcio
