import Verif.Lcio.Reader
import Verif.Util.Text
/-
Model of the program lcio_parallel_read: one thread for each file, that prints its events.
-/
namespace Util
open Sio Lcio

/-- A field of at least `w` characters, with the text on the left: `cout.width(w); cout << left << s`. -/
def padLeft (w : Nat) (s : Str) : Str := s ++ List.replicate (w - s.length) 32

/-- The same with the text on the right. -/
def padRight (w : Nat) (s : Str) : Str := List.replicate (w - s.length) 32 ++ s

/-- `endl`. -/
def eol : Str := [10]

/-- The lines of `LCTOOLS::dumpEvent`, src/cpp/src/UTIL/LCTOOLS.cc:54-61 and 79-80. -/
def slashes : Str := str "///////////////////////////////////"
def dashes : Str := str "---------------------------------------------------------------------------"
def equalSigns : Str := str "==========================================================================="

/-- What `LCTOOLS::dumpEvent` writes about a collection, LCTOOLS.cc:72-77: one entry for each `<<`. -/
def dumpCol (c : Str × Collection) : List Str :=
  [padLeft 30 c.1, padLeft 25 c.2.type, padRight 9 (decInt c.2.elems.length), eol]

/-- `LCTOOLS::dumpEvent`, LCTOOLS.cc:50-82: what is written to `cout`, one entry for each `<<`. The names of the collections come in the order of the map (src/cpp/src/IMPL/LCEventImpl.cc: `getCollectionNames`). -/
def dumpEvent (e : EventData) : List Str :=
  [slashes, eol, str "EVENT: ", decInt e.1.evt.toInt, eol, str "RUN: ", decInt e.1.run.toInt, eol, str "DETECTOR: ", e.1.det, eol, str "COLLECTIONS: (see below)", eol, slashes, eol, eol,
   dashes, eol, padLeft 30 (str "COLLECTION NAME"), padLeft 25 (str "COLLECTION TYPE"), padLeft 20 (str "NUMBER OF ELEMENTS"), eol, equalSigns, eol] ++
  (e.2.map dumpCol).flatten ++ [dashes, eol, eol, eol, eol]

/-- Where a thread is, src/cpp/src/EXAMPLE/lcio_parallel_read.cc:47-66: before `open`; at `readNextEvent`, with the number of events so far; with an event, before it has the mutex; in `dumpEvent`, with what is left to write; it has returned its number of events; or
it has ended with an exception, that the future keeps. -/
inductive FileThread where
  | opening
  | reading (r : Reader) (n : Nat)
  | locking (r : Reader) (n : Nat) (e : EventData)
  | dumping (r : Reader) (n : Nat) (left : List Str)
  | returned (n : Nat)
  | threw (e : Err)

/-- Where the main thread is, lcio_parallel_read.cc:70-76: at `get` of the `i`-th future, with the sum so far; at the end; or ended by the exception of a future. -/
inductive MainThread where
  | summing (i : Nat) (total : Nat)
  | ended
  | failed (e : Err)

/-- The state of the program: the files on the disk, the names, the threads, `printMutex` and what is written to `cout`. -/
structure PRead where
  threads : List FileThread
  mutex : Option Nat := none
  main : MainThread := .summing 0 0
  out : List Str := []

/-- `lcReader->open(fileName)`, lcio_parallel_read.cc:49-51. -/
def openOne (cfg : RConfig) (disk : List (Str × List Byte)) (name : Str) : Except Err Reader := match disk.lookup name with
  | none => .error .notOpen
  | some bytes => match Reader.openFiles cfg false [(name, bytes)] with
    | (.error e, _) => .error e
    | (.ok (), r) => .ok r

/-- The last line, lcio_parallel_read.cc:76, one entry for each `<<`. -/
def lastLine (total files : Nat) : List Str := [str "Printed ", dec total, str " events from ", dec files, str " files", eol]

/-- One step of one of the threads. Each thread has a reader of its own. The numbers of events are not reduced to 32 bits, and threads can always be started. -/
inductive PStep (cfg : RConfig) (disk : List (Str × List Byte)) (names : List Str) : PRead → PRead → Prop
  /-- `open` returns, line 51. -/
  | opened {s : PRead} {t : Nat} {name : Str} {r : Reader} : s.threads[t]? = some .opening → names[t]? = some name → openOne cfg disk name = .ok r →
      PStep cfg disk names s { s with threads := s.threads.set t (.reading r 0) }
  /-- `open` throws. -/
  | notOpened {s : PRead} {t : Nat} {name : Str} {e : Err} : s.threads[t]? = some .opening → names[t]? = some name → openOne cfg disk name = .error e →
      PStep cfg disk names s { s with threads := s.threads.set t (.threw e) }
  /-- `readNextEvent` gives an event, line 56. -/
  | read {s : PRead} {t : Nat} {r r' : Reader} {n : Nat} {e : EventData} : s.threads[t]? = some (.reading r n) → r.readNextEvent cfg = (.ok (some e), r') →
      PStep cfg disk names s { s with threads := s.threads.set t (.locking r' n e) }
  /-- `readNextEvent` gives a null pointer: the loop ends, lines 56 and 63-65. -/
  | done {s : PRead} {t : Nat} {r r' : Reader} {n : Nat} : s.threads[t]? = some (.reading r n) → r.readNextEvent cfg = (.ok none, r') →
      PStep cfg disk names s { s with threads := s.threads.set t (.returned n) }
  /-- `readNextEvent` throws. -/
  | readFails {s : PRead} {t : Nat} {r r' : Reader} {n : Nat} {e : Err} : s.threads[t]? = some (.reading r n) → r.readNextEvent cfg = (.error e, r') →
      PStep cfg disk names s { s with threads := s.threads.set t (.threw e) }
  /-- The thread gets the mutex, line 58, and begins to print, line 59. -/
  | lock {s : PRead} {t : Nat} {r : Reader} {n : Nat} {e : EventData} : s.threads[t]? = some (.locking r n e) → s.mutex = none →
      PStep cfg disk names s { s with threads := s.threads.set t (.dumping r n (dumpEvent e)), mutex := some t }
  /-- One `<<` of `dumpEvent`, line 59. -/
  | write {s : PRead} {t : Nat} {r : Reader} {n : Nat} {x : Str} {left : List Str} : s.threads[t]? = some (.dumping r n (x :: left)) →
      PStep cfg disk names s { s with threads := s.threads.set t (.dumping r n left), out := s.out ++ [x] }
  /-- `dumpEvent` returns, and the mutex is released, lines 60-61. -/
  | unlock {s : PRead} {t : Nat} {r : Reader} {n : Nat} : s.threads[t]? = some (.dumping r n []) →
      PStep cfg disk names s { s with threads := s.threads.set t (.reading r (n + 1)), mutex := none }
  /-- `get` returns a number, lines 72-74. -/
  | get {s : PRead} {i total n : Nat} : s.main = .summing i total → s.threads[i]? = some (.returned n) → PStep cfg disk names s { s with main := .summing (i + 1) (total + n) }
  /-- `get` throws, and nothing catches the exception. -/
  | getFails {s : PRead} {i total : Nat} {e : Err} : s.main = .summing i total → s.threads[i]? = some (.threw e) → PStep cfg disk names s { s with main := .failed e }
  /-- The last line, line 76. No other thread is left, so that it is written in one step. -/
  | finish {s : PRead} {i total : Nat} : s.main = .summing i total → s.threads[i]? = none →
      PStep cfg disk names s { s with main := .ended, out := s.out ++ lastLine total names.length }

/-- Any number of steps, in any order of the threads. -/
inductive PSteps (cfg : RConfig) (disk : List (Str × List Byte)) (names : List Str) : PRead → PRead → Prop
  | refl (s : PRead) : PSteps cfg disk names s s
  | tail {a b c : PRead} : PSteps cfg disk names a b → PStep cfg disk names b c → PSteps cfg disk names a c

/-- The program when all threads have been started, lcio_parallel_read.cc:43-67. -/
def PRead.start (names : List Str) : PRead := { threads := names.map fun _ => .opening }

end Util

namespace Spec
open Sio Lcio Util

/-- Reading events with one reader until there are no more: the events, and the exception if there is one. The first argument bounds their number. -/
def readRest (cfg : RConfig) : Nat → Reader → List EventData × Option Err
  | 0, _ => ([], some .diverge)
  | fuel+1, r => match r.readNextEvent cfg with
    | (.error e, _) => ([], some e)
    | (.ok none, _) => ([], none)
    | (.ok (some e), r) => let x := readRest cfg fuel r; (e :: x.1, x.2)

/-- The same for a file, that can also not be opened. -/
def readFile (cfg : RConfig) (disk : List (Str × List Byte)) (fuel : Nat) (name : Str) : List EventData × Option Err := match openOne cfg disk name with
  | .error e => ([], some e)
  | .ok r => readRest cfg fuel r

/-- The text of an event. -/
def eventText (e : EventData) : Str := (dumpEvent e).flatten

end Spec
