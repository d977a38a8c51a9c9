import Verif.Lcio.SioReader
/-
Listeners of `SIO::SIOReader`.
-/
namespace Lcio
open Sio

/-- The sets of pointers `_evtListeners` and `_runListeners`, src/cpp/include/SIO/SIOReader.h:209-211, as lists of addresses in ascending order. -/
structure Sets where
  events : List Nat := []
  runs : List Nat := []
deriving DecidableEq

/-- `std::set::insert`. -/
def insertAddr (a : Nat) : List Nat → List Nat
  | [] => [a]
  | b :: bs => if a < b then a :: b :: bs else if a = b then b :: bs else b :: insertAddr a bs

/-- `erase( find( ls ) )`: undefined if it is not there. -/
def removeAddr (a : Nat) (l : List Nat) : Except Err (List Nat) := if a ∈ l then .ok (l.filter (· ≠ a)) else .error .ub

/-- `registerLCEventListener`, `removeLCEventListener`, `registerLCRunListener`, `removeLCRunListener`. -/
inductive Change where
  | addEvent (a : Nat)
  | removeEvent (a : Nat)
  | addRun (a : Nat)
  | removeRun (a : Nat)
deriving DecidableEq

/-- These functions, src/cpp/src/SIO/SIOReader.cc:163-183. -/
def Sets.apply (s : Sets) : Change → Except Err Sets
  | .addEvent a => .ok { s with events := insertAddr a s.events }
  | .removeEvent a => (removeAddr a s.events).map fun l => { s with events := l }
  | .addRun a => .ok { s with runs := insertAddr a s.runs }
  | .removeRun a => (removeAddr a s.runs).map fun l => { s with runs := l }

/-- Any of them one after the other. -/
def Sets.applyAll (s : Sets) : List Change → Except Err Sets
  | [] => .ok s
  | c :: cs => match s.apply c with
    | .error e => .error e
    | .ok s => s.applyAll cs

/-- What the listeners do, by their addresses: `modifyEvent` and `processEvent`, or `modifyRunHeader` and `processRunHeader`. They can throw, change what belongs to the program (`σ`), and register and remove
listeners; the first of them can also change what it is given. That the second cannot is C47. What they do before they throw is not modelled, and neither are calls of other functions of the reader. -/
structure Listener (σ α : Type) where
  modify : Nat → σ → α → Except Err (σ × α × List Change)
  process : Nat → σ → α → Except Err (σ × List Change)

/-- Who was called, whether to modify, and with what. -/
abbrev Told := Nat × Bool × Delivery

/-- The loops of `processEvent` and `processRunHeader`, SIOReader.cc:197-207 and 211-221, from where the iterator is. If a listener removes itself, the iterator becomes invalid, and is used
(as `iter++` if not before). The first argument bounds the number of calls. -/
def visit {σ α : Type} (mk : α → Delivery) (sel : Sets → List Nat) (own : Nat → Change) (p : Listener σ α) : Nat → Option Nat → Sets → σ → α → List Told × Except Err (Sets × σ)
  | _, none, s, st, _ => ([], .ok (s, st))
  | 0, some _, _, _, _ => ([], .error .diverge)
  | fuel+1, some a, s, st, x =>
    match p.modify a st x with
    | .error e => ([(a, true, mk x)], .error e)
    | .ok (st1, x1, cs) =>
      if own a ∈ cs then ([(a, true, mk x)], .error .ub)
      else match s.applyAll cs with
        | .error e => ([(a, true, mk x)], .error e)
        | .ok s1 =>
          match p.process a st1 x1 with
          | .error e => ([(a, true, mk x), (a, false, mk x1)], .error e)
          | .ok (st2, cs) =>
            if own a ∈ cs then ([(a, true, mk x), (a, false, mk x1)], .error .ub)
            else match s1.applyAll cs with
              | .error e => ([(a, true, mk x), (a, false, mk x1)], .error e)
              | .ok s2 =>
                let r := visit mk sel own p fuel ((sel s2).find? (a < ·)) s2 st2 x1
                ((a, true, mk x) :: (a, false, mk x1) :: r.1, r.2)

/-- All listeners of a program. -/
structure Listeners (σ : Type) where
  events : Listener σ EventData
  runs : Listener σ RunHeader

/-- `processEvent` and `processRunHeader`, SIOReader.cc:198-223. -/
def Listeners.tell {σ : Type} (p : Listeners σ) (fuel : Nat) (s : Sets) (st : σ) : Delivery → List Told × Except Err (Sets × σ)
  | .event e => visit .event Sets.events .removeEvent p.events fuel s.events.head? s st e
  | .run h => visit .run Sets.runs .removeRun p.runs fuel s.runs.head? s st h

/-- The same for all that the reader gives to its listener, until there is an exception. -/
def Listeners.tellAll {σ : Type} (p : Listeners σ) (fuel : Nat) : List Delivery → Sets → σ → List Told × Except Err (Sets × σ)
  | [], s, st => ([], .ok (s, st))
  | d :: ds, s, st =>
    match p.tell fuel s st d with
    | (told, .error e) => (told, .error e)
    | (told, .ok (s, st)) =>
      let r := p.tellAll fuel ds s st
      (told ++ r.1, r.2)

/-- `readStream(maxRecord)`, SIOReader.cc:187-195: the reader inside is called with the `SIOReader` as its only listener. Listeners do not change the reader, so that it can be modelled first; its exception, if any,
comes after all that it gave has been processed. -/
def SioReader.readStream {σ : Type} (cfg : RConfig) (r : SioReader) (p : Listeners σ) (fuel : Nat) (s : Sets) (st : σ) (maxRecord : Int) : List Told × Except Err (Sets × σ) :=
  match r.mt.readStream cfg 1 maxRecord with
  | (log, res, _) =>
    match p.tellAll fuel (log.map (·.2)) s st with
    | (told, .error e) => (told, .error e)
    | (told, .ok x) => (told, res.map fun _ => x)

end Lcio

namespace Spec
open Sio Lcio

/-- Listeners that do not throw and do not register or remove any, by what they do. -/
structure Quiet (σ α : Type) where
  modify : Nat → σ → α → σ × α
  process : Nat → σ → α → σ

/-- They are listeners. -/
def Quiet.listener {σ α : Type} (q : Quiet σ α) : Listener σ α where
  modify := fun a st x => .ok ((q.modify a st x).1, (q.modify a st x).2, [])
  process := fun a st x => .ok (q.process a st x, [])

/-- All listeners of a list are called one after the other, each first to modify and then to process. Each is given the data as changed by those before, and processes it as changed by itself too. -/
def Quiet.tell {σ α : Type} (q : Quiet σ α) (mk : α → Delivery) : List Nat → σ → α → List Told × σ
  | [], st, _ => ([], st)
  | a :: as, st, x =>
    let (st1, x1) := q.modify a st x
    let st2 := q.process a st1 x1
    let (told, st3) := q.tell mk as st2 x1
    ((a, true, mk x) :: (a, false, mk x1) :: told, st3)

/-- For everything that is in files, in its order: events for the listeners of events, run headers for those of run headers. -/
def tellAll {σ : Type} (qe : Quiet σ EventData) (qr : Quiet σ RunHeader) (events runs : List Nat) : List Delivery → σ → List Told × σ
  | [], st => ([], st)
  | .event e :: ds, st =>
    let (t, st1) := qe.tell .event events st e
    let (ts, st2) := tellAll qe qr events runs ds st1
    (t ++ ts, st2)
  | .run h :: ds, st =>
    let (t, st1) := qr.tell .run runs st h
    let (ts, st2) := tellAll qe qr events runs ds st1
    (t ++ ts, st2)

/-- A listener is registered after some calls: there is a call that registers it, and none that removes it after that. -/
def Registered (add remove : Change) (history : List Change) : Prop := ∃ before after, history = before ++ add :: after ∧ remove ∉ after

end Spec
