import Verif.Lcio.Writer
import Verif.Lcio.Reader
import Verif.Spec.Event
import Verif.Spec.RunEvents
/-
Specification vocabulary: what clients of the writer and of the reader do.
-/
namespace Spec
open Sio Lcio

/-- A codec that gets back what it compressed. -/
def Lossless (codec : Codec) : Prop := ∀ data comp, codec.compress data = .ok comp → codec.uncompress comp data.length = .ok data

/-! ### Writing -/

/-- Something to be written: a run header, or an event (header and collections); with the content of the buffers that are used. -/
inductive Put where
  | run (h : RunHeader) (buf : Str)
  | event (h : EventHeader) (cols : List (Str × Collection)) (buf : Str × Str)

/-- The call for it. -/
def Put.call (codec : Codec) (std : Std Pid) (compress : Bool) (w : Writer) : Put → Except Err Unit × Writer
  | .run h buf => w.writeRunHeader codec compress buf h
  | .event h cols buf => w.writeEvent codec std compress buf.1 buf.2 h cols

/-- Write one after the other. -/
def putAll (codec : Codec) (std : Std Pid) (compress : Bool) : Writer → List Put → Except Err Writer
  | w, [] => .ok w
  | w, p :: ps => match p.call codec std compress w with
    | (.error e, _) => .error e
    | (.ok (), w) => putAll codec std compress w ps

/-- A session of a writer: whether to compress, and what is written between `open` and `close`. -/
structure Session where
  compress : Bool
  puts : List Put

/-- A session with a writer on a file: open it for append if it exists (it has some content), otherwise as new file; write; close. The result is the
writer and the content of the file. -/
def Session.run (codec : Codec) (std : Std Pid) (w : Writer) (file : Option (List Byte)) (s : Session) : Except Err (Writer × Option (List Byte)) := do
  let w ← match file with
    | none => w.openNew
    | some bytes => w.openAppend codec (some bytes)
  let w ← putAll codec std s.compress w s.puts
  w.close

/-- Sessions with the same writer and the same file: the first one creates the file, the others append. -/
def runSessions (codec : Codec) (std : Std Pid) : Writer → Option (List Byte) → List Session → Except Err (Writer × Option (List Byte))
  | w, file, [] => .ok (w, file)
  | w, file, s :: ss => match s.run codec std w file with
    | .error e => .error e
    | .ok (w, file) => runSessions codec std w file ss

/-- What can be written: the records can be written, see `Job.Ok`, and a run header also has what `RunHeaderOk` says. -/
def Put.Ok (codec : Codec) (std : Std Pid) (compress : Bool) : Put → Prop
  | .run h _ => RunHeaderOk h ∧ Job.Ok codec ⟨runRecordName, 0, [h.block], compress⟩
  | .event h cols _ => Job.Ok codec ⟨headerRecordName, 0, [EventHeader.block [] { h with cols := colHeads cols }], compress⟩ ∧
      Job.Ok codec ⟨eventRecordName, 0, eventBlocks std [] cols, compress⟩

/-- The key of a run header or event in the event map. -/
def Put.key : Put → RunEvent
  | .run h _ => ⟨h.run, -1⟩
  | .event h _ _ => ⟨h.run, h.evt⟩

/-- A session that can be written: everything in it can be, and differences of its run numbers can be computed with 32 bits. -/
structure Session.Ok (codec : Codec) (std : Std Pid) (s : Session) : Prop where
  puts : ∀ p ∈ s.puts, p.Ok codec std s.compress
  runs : ∀ p ∈ s.puts, ∀ q ∈ s.puts, -2 ^ 31 ≤ p.key.run.toInt - q.key.run.toInt ∧ p.key.run.toInt - q.key.run.toInt < 2 ^ 31

/-- Everything that is written in some sessions. -/
def allPuts (ss : List Session) : List Put := ss.flatMap Session.puts

/-- Sessions that can be written: each one can be, the first one writes something, and less than 2^27 things are written. -/
structure SessionsOk (codec : Codec) (std : Std Pid) (ss : List Session) : Prop where
  each : ∀ s ∈ ss, s.Ok codec std
  first : ∃ s rest, ss = s :: rest ∧ s.puts ≠ []
  count : (allPuts ss).length < 2 ^ 27

/-- The content of a file that does not exist before, after some sessions of a new writer. -/
def fileAfter (codec : Codec) (std : Std Pid) (ss : List Session) : Except Err (Option (List Byte)) :=
  match runSessions codec std {} none ss with
  | .error e => .error e
  | .ok (_, file) => .ok file

/-! ### Reading -/

/-- The run header that should come out: the one that was put in, except that the parameter `LCIOFileName` is the name of the file, and
that the parameters can be changed. -/
def Put.loadedRun (file : Str) : Put → Option RunHeader
  | .run h _ => some { h with params :=
      { h.params with readOnly := false, strs := (omAssign strLt (str "LCIOFileName") [file] h.params.strs).1 } }
  | .event _ _ _ => none

/-- What should come out for something that was put in, read from a file with the given name; none if the event cannot be loaded. -/
def delivery (cfg : RConfig) (file : Str) : Put → Option Delivery
  | .run h buf => ((Put.run h buf).loadedRun file).map .run
  | .event h cols buf => match storeLoadEvent cfg.std cfg.ignoreNull [] cfg.wanted buf 0 1 h cols with
    | .error _ => none
    | .ok e => some (.event e)

def Put.isEvent : Put → Bool
  | .event _ _ _ => true
  | .run _ _ => false

/-- What is in some files: the names of the files, and what was put in. -/
def items (files : List (Str × List Put)) : List (Str × Put) := files.flatMap fun f => f.2.map fun p => (f.1, p)

/-- Call `readNextEvent` or `readNextRunHeader`. -/
inductive Get where
  | event
  | run

def Get.wants : Get → Put → Bool
  | .event, p => p.isEvent
  | .run, p => !p.isEvent

def Get.call (cfg : RConfig) (r : Reader) : Get → Except Err (Option Delivery) × Reader
  | .event => match r.readNextEvent cfg with
    | (.error e, r) => (.error e, r)
    | (.ok e, r) => (.ok (e.map .event), r)
  | .run => match r.readNextRunHeader cfg with
    | (.error e, r) => (.error e, r)
    | (.ok h, r) => (.ok (h.map .run), r)

/-- Calls one after the other until null is returned. -/
def gets (cfg : RConfig) : List Get → Reader → Except Err (List (Option Delivery))
  | [], _ => .ok []
  | g :: gs, r => match g.call cfg r with
    | (.error e, _) => .error e
    | (.ok none, _) => .ok [none]
    | (.ok (some d), r) => match gets cfg gs r with
      | .error e => .error e
      | .ok ds => .ok (some d :: ds)

/-- The reader after these calls. -/
def afterGets (cfg : RConfig) : List Get → Reader → Reader
  | [], r => r
  | g :: gs, r => match g.call cfg r with
    | (.error _, r) => r
    | (.ok none, r) => r
    | (.ok (some _), r) => afterGets cfg gs r

/-- What these calls should return: each the next thing of its kind. -/
def serve (cfg : RConfig) : List Get → List (Str × Put) → List (Option Delivery)
  | [], _ => []
  | g :: gs, its => match its.dropWhile fun x => !g.wants x.2 with
    | [] => [none]
    | x :: rest => delivery cfg x.1 x.2 :: serve cfg gs rest

/-- What is left after these calls. -/
def remaining : List Get → List (Str × Put) → List (Str × Put)
  | [], its => its
  | g :: gs, its => remaining gs ((its.dropWhile fun x => !g.wants x.2).tail)

/-- What is left after `n` events. -/
def afterEvents : Nat → List (Str × Put) → List (Str × Put)
  | 0, its => its
  | _+1, [] => []
  | n+1, x :: its => if x.2.isEvent then afterEvents n its else afterEvents (n + 1) its

/-- How many events there are. -/
def countEvents (its : List (Str × Put)) : Nat := its.countP fun x => x.2.isEvent

/-- What `k` listeners should get for this: each of them everything. -/
def handed (cfg : RConfig) (k : Nat) (its : List (Str × Put)) : List (Nat × Delivery) :=
  its.flatMap fun x => (delivery cfg x.1 x.2).toList.flatMap fun d => (List.range k).map fun i => (i, d)

/-- Everything can be loaded. -/
def Loadable (cfg : RConfig) (ps : List Put) : Prop := ∀ p ∈ ps, ∀ file, delivery cfg file p ≠ none

/-- A list of files, with their names and the sessions that made them. A file can also be made by one session that writes nothing. -/
def FilesHold (codec : Codec) (std : Std Pid) (files : List (Str × List Byte)) (contents : List (Str × List Session)) : Prop :=
  All2 (fun f c => f.1 = c.1 ∧ fileAfter codec std c.2 = .ok (some f.2) ∧ (SessionsOk codec std c.2 ∨ ∃ compress, c.2 = [⟨compress, []⟩])) files contents

/-- What is in the files. -/
def contentsOf (contents : List (Str × List Session)) : List (Str × Put) := items (contents.map fun c => (c.1, allPuts c.2))

/-- Read events until there are no more. The first argument bounds their number. -/
def allEvents (cfg : RConfig) : Nat → Reader → Except Err (List EventData)
  | 0, _ => .error .diverge
  | n+1, r => match r.readNextEvent cfg with
    | (.error e, _) => .error e
    | (.ok none, _) => .ok []
    | (.ok (some e), r) => match allEvents cfg n r with
      | .error e => .error e
      | .ok es => .ok (e :: es)

/-- Read run headers until there are no more. -/
def allRuns (cfg : RConfig) : Nat → Reader → Except Err (List RunHeader)
  | 0, _ => .error .diverge
  | n+1, r => match r.readNextRunHeader cfg with
    | (.error e, _) => .error e
    | (.ok none, _) => .ok []
    | (.ok (some h), r) => match allRuns cfg n r with
      | .error e => .error e
      | .ok hs => .ok (h :: hs)

/-! ## Direct access -/

/-- Either all the run headers and events have the same run number, or the first and the last one in the order of the event map have different ones. (The order: run
headers by run number, then events by run number and event number.) -/
def OneIndex (ps : List Put) : Prop :=
  (∀ p ∈ ps, ∀ q ∈ ps, p.key.run = q.key.run) ∨
  ∃ p ∈ ps, ∃ q ∈ ps, p.key.run ≠ q.key.run ∧ ∀ x ∈ ps, RunEvent.lt x.key p.key = false ∧ RunEvent.lt q.key x.key = false

/-- Sessions whose events can be found: event numbers are not negative, and the index of each session is lossless (see C25). -/
structure DirectOk (ss : List Session) : Prop where
  numbers : ∀ p ∈ allPuts ss, p.isEvent = true → 0 ≤ p.key.evt.toInt
  index : ∀ s ∈ ss, OneIndex s.puts

/-- How many different events (by run and event number) are in a list. -/
def eventsIn (ps : List Put) : Nat := (distinct ((ps.filter Put.isEvent).map Put.key)).length
/-- How many different run headers (by run number). -/
def runsIn (ps : List Put) : Nat := (distinct ((ps.filter fun p => !p.isEvent).map Put.key)).length

/-- What the sessions wrote, without those that wrote nothing. -/
def written (ss : List Session) : List (List Put) := (ss.map Session.puts).filter fun l => !l.isEmpty

/-- A reader that continues at a position of the file. -/
def seeked (r : Reader) (pos : W64) : Reader := { r with stream := r.stream.seekg pos.toNat }

end Spec
