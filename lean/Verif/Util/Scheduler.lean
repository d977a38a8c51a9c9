import Verif.Lcio.Reader
/-
Model of the program lcio_parallel_processing: a scheduler that gives each event to a task of its own.
-/
namespace Util
open Sio Lcio

/-- What a task has done: nothing yet, printed its line, returned. -/
inductive TaskState where
  | started
  | printed
  | finished
deriving DecidableEq

/-- A task, with its event. -/
structure Task where
  event : EventData
  state : TaskState

/-- Where the main thread is: in the loop of `main`, src/cpp/src/EXAMPLE/lcio_parallel_processing.cc:144-151; at the condition of the loop in `startTask` (44); in `processFinishedTasks`, with the position of the iterator (72-85); in `waitForAll` (62-68), called by
`processRunHeader` or, at the end, by the destructor, at the `i`-th future; at the end. -/
inductive Phase where
  | reading
  | starting (e : EventData)
  | polling (e : EventData) (i : Nat)
  | waiting (h : Option RunHeader) (i : Nat)
  | ended

/-- The state of the program: what the reader will give, where the main thread is, `_futures` (as numbers of tasks), all tasks ever started, and the lines printed. Lines about the scheduler itself are left out. -/
structure Sched where
  left : List Delivery
  phase : Phase := .reading
  futures : List Nat := []
  tasks : List Task := []
  printed : List Delivery := []

/-- One step of one of the threads. -/
inductive Step (maxNTasks : Nat) : Sched → Sched → Prop
  /-- `readNextRecord` gives an event: `processEvent`, lines 91-93. -/
  | readEvent {s : Sched} {e : EventData} {rest : List Delivery} : s.phase = .reading → s.left = .event e :: rest → Step maxNTasks s { s with left := rest, phase := .starting e }
  /-- `readNextRecord` gives a run header: `processRunHeader`, lines 95-100. -/
  | readRun {s : Sched} {h : RunHeader} {rest : List Delivery} : s.phase = .reading → s.left = .run h :: rest → Step maxNTasks s { s with left := rest, phase := .waiting (some h) 0 }
  /-- `readNextRecord` throws at the end of the data: the loop ends, and the scheduler is destroyed, lines 39-41 and 148-150. -/
  | readEnd {s : Sched} : s.phase = .reading → s.left = [] → Step maxNTasks s { s with phase := .waiting none 0 }
  /-- `canStartNewTask`, and a new task is started: lines 44-60 and 87-89. -/
  | start {s : Sched} {e : EventData} : s.phase = .starting e → s.futures.length < maxNTasks →
      Step maxNTasks s { s with phase := .reading, futures := s.futures ++ [s.tasks.length], tasks := s.tasks ++ [⟨e, .started⟩] }
  /-- Not so: lines 44-47. -/
  | busy {s : Sched} {e : EventData} : s.phase = .starting e → ¬ s.futures.length < maxNTasks → Step maxNTasks s { s with phase := .polling e 0 }
  /-- A task has returned: its future is removed, lines 75-80. -/
  | ready {s : Sched} {e : EventData} {i t : Nat} {x : Task} : s.phase = .polling e i → s.futures[i]? = some t → s.tasks[t]? = some x → x.state = .finished →
      Step maxNTasks s { s with futures := s.futures.eraseIdx i }
  /-- It has not: lines 81-83. -/
  | notReady {s : Sched} {e : EventData} {i t : Nat} {x : Task} : s.phase = .polling e i → s.futures[i]? = some t → s.tasks[t]? = some x → x.state ≠ .finished →
      Step maxNTasks s { s with phase := .polling e (i + 1) }
  /-- The end of the list: line 74. -/
  | polled {s : Sched} {e : EventData} {i : Nat} : s.phase = .polling e i → s.futures[i]? = none → Step maxNTasks s { s with phase := .starting e }
  /-- `get` returns when the task has returned: lines 64-66. -/
  | get {s : Sched} {h : Option RunHeader} {i t : Nat} {x : Task} : s.phase = .waiting h i → s.futures[i]? = some t → s.tasks[t]? = some x → x.state = .finished →
      Step maxNTasks s { s with phase := .waiting h (i + 1) }
  /-- All have returned: `_futures.clear()`, and the run header is printed, lines 67 and 98-99. -/
  | waited {s : Sched} {h : RunHeader} {i : Nat} : s.phase = .waiting (some h) i → s.futures[i]? = none →
      Step maxNTasks s { s with phase := .reading, futures := [], printed := s.printed ++ [.run h] }
  /-- The same at the end. -/
  | close {s : Sched} {i : Nat} : s.phase = .waiting none i → s.futures[i]? = none → Step maxNTasks s { s with phase := .ended, futures := [] }
  /-- A task prints its line, lines 51-54. -/
  | print {s : Sched} {t : Nat} {x : Task} : s.tasks[t]? = some x → x.state = .started →
      Step maxNTasks s { s with tasks := s.tasks.set t { x with state := .printed }, printed := s.printed ++ [.event x.event] }
  /-- A task returns, lines 56-59. -/
  | finish {s : Sched} {t : Nat} {x : Task} : s.tasks[t]? = some x → x.state = .printed → Step maxNTasks s { s with tasks := s.tasks.set t { x with state := .finished } }

/-- Any number of steps, in any order of the threads. -/
inductive Steps (maxNTasks : Nat) : Sched → Sched → Prop
  | refl (s : Sched) : Steps maxNTasks s s
  | tail {a b c : Sched} : Steps maxNTasks a b → Step maxNTasks b c → Steps maxNTasks a c

/-- The number of threads, lines 129-136: `hardware_concurrency()`, which can be 0, or the value of LCIO_MAX_THREADS as `atoi` gives it, as an unsigned number. -/
def maxThreads (hardware : W32) (env : Option W32) : W32 := match env with
  | none => hardware
  | some n => if n.toNat ≤ 0 then 1 else n

/-- The calls of `readNextRecord` in the loop of `main`, lines 144-151, src/cpp/src/MT/LCReader.cc:539-541: everything they deliver. The first argument bounds the number of calls. -/
def recordLoop (cfg : RConfig) : Nat → Reader → List Delivery × Except Err Unit
  | 0, _ => ([], .error .diverge)
  | fuel+1, r => match r.readStream cfg 1 1 with
    | (log, .error .endOfData, _) => (log.map (·.2), .ok ())
    | (log, .error e, _) => (log.map (·.2), .error e)
    | (log, .ok (), r) =>
      let x := recordLoop cfg fuel r
      (log.map (·.2) ++ x.1, x.2)

end Util

namespace Spec
open Sio Lcio Util

/-- Only events. -/
def OnlyEvents (ds : List Delivery) : Prop := ∀ d ∈ ds, ∃ e, d = .event e

/-- The lines printed for what is in files: everything once; run headers in their order, and each after all events before it and before all events after it. -/
inductive InParallel : List Delivery → List Delivery → Prop
  | last {es log : List Delivery} : OnlyEvents es → log.Perm es → InParallel es log
  | run {es log ds log' : List Delivery} {h : RunHeader} : OnlyEvents es → log.Perm es → InParallel ds log' → InParallel (es ++ .run h :: ds) (log ++ .run h :: log')

end Spec
