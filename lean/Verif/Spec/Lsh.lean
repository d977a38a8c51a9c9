import Verif.Util.Lsh
import Verif.Spec.Anajob
/-
Specification of the LCIO shell: what is shown at which place.
-/
namespace Spec
open Sio Lcio Util

/-- A file, with its name and the sessions that made it: the events in it, as they are read. -/
def lshEvents (cfg : RConfig) (c : Str × List Session) : List EventData := eventDataIn cfg ((allPuts c.2).map fun p => (c.1, p))

/-- The numbers and descriptions of the run headers that were written. -/
def runsOf (ps : List Put) : List (Int × Str) := ps.filterMap fun p => match p with
  | .run h _ => some (h.run.toInt, h.descr)
  | .event _ _ _ => none

/-- A list of runs, with descriptions and numbers of events: all runs that have a header, in the order of their numbers, with the description in the first header. -/
structure RunList (runs : List (Int × Str)) (es : List EventData) (l : List (Int × Str × Nat)) : Prop where
  ordered : l.Pairwise fun a b => a.1 < b.1
  entries : ∀ n d k, (n, d, k) ∈ l ↔ (runs.find? fun x => decide (x.1 = n)) = some (n, d) ∧ k = es.countP fun e => decide (e.1.run.toInt = n)

/-- The first event with these numbers. -/
def eventAt (cfg : RConfig) (c : Str × List Session) (run evt : Int) : Option EventData :=
  (lshEvents cfg c).find? fun e => decide (e.1.run.toInt = run ∧ e.1.evt.toInt = evt)

/-- The collection with a number. Numbers are counted modulo 2^32. -/
def collectionAt (cfg : RConfig) (c : Str × List Session) (run evt n : Int) : Option (Str × Collection) :=
  (eventAt cfg c run evt).bind fun e => e.2[(n % 2 ^ 32).toNat]?

/-- One part of a path. -/
inductive LshStep where
  | up
  | into (n : Int)

def LshStep.text : LshStep → Str
  | .up => str ".."
  | .into n => decInt n

/-- The parts of a path, separated by `/`. -/
def pathText : List LshStep → Str
  | [] => []
  | [x] => x.text
  | x :: xs => x.text ++ 47 :: pathText xs

/-- Where a step leads, from a place, which is given by the numbers of the run, the event and the collection as far as one has entered one: into runs and events whether they exist or not, and into
collections that exist. None if the program is left. -/
def stepTo (cfg : RConfig) (c : Str × List Session) (place : List Int) : LshStep → Option (List Int)
  | .up => if place = [] then none else some place.dropLast
  | .into n => match place with
    | [] => some [n]
    | [run] => some [run, n]
    | [run, evt] => if (collectionAt cfg c run evt n).isSome then some [run, evt, n] else some place
    | _ => some place

def walk (cfg : RConfig) (c : Str × List Session) : List Int → List LshStep → Option (List Int)
  | place, [] => some place
  | place, x :: xs => match stepTo cfg c place x with
    | none => none
    | some place => walk cfg c place xs

/-- What the user can do. -/
inductive LshCall where
  | ls
  | cd (path : List LshStep)
  | cat (short : Bool) (n : Int)
  | dump (detailed : Bool)
  | «open» (c : Str × List Session)

/-- The words of the line. -/
def LshCall.words : LshCall → List Str
  | .ls => [str "ls"]
  | .cd path => [str "cd", pathText path]
  | .cat short n => if short then [str "cat", str "-s", decInt n] else [str "cat", decInt n]
  | .dump detailed => if detailed then [str "dump", str "-d"] else [str "dump"]
  | .open c => [str "open", c.1]

/-- The file that is open, those that were opened before, and the place in it. -/
structure LshPlace where
  file : Str × List Session
  before : List (Str × List Session) := []
  place : List Int := []

/-- The place after a call, none if the program ends. -/
def LshPlace.after (cfg : RConfig) (p : LshPlace) : LshCall → Option LshPlace
  | .cd path => (walk cfg p.file p.place path).map fun x => { p with place := x }
  | .open c => some { file := c, before := p.file :: p.before }
  | _ => some p

/-- The number of all events that were counted: also those of the files that were open before. -/
def LshPlace.total (cfg : RConfig) (p : LshPlace) : Nat := ((p.file :: p.before).map fun c => (lshEvents cfg c).length).sum

def Contents (cfg : RConfig) (c : Str × List Session) (run evt n : Int) (short : Bool) (out : List LshItem) : Prop :=
  out = match collectionAt cfg c run evt n with
    | some x => [.contents x.1 x.2 short]
    | none => []

/-- What is shown. -/
def Shown (cfg : RConfig) (p : LshPlace) (call : LshCall) (out : List LshItem) : Prop :=
  match call, p.place with
  | .ls, [] => ∃ l, RunList (runsOf (allPuts p.file.2)) (lshEvents cfg p.file) l ∧ out = .top l.length (some (p.total cfg)) :: l.map fun x => .run x.1 x.2.1 (some x.2.2)
  | .ls, [run] => out = ((lshEvents cfg p.file).filter fun e => decide (e.1.run.toInt = run)).map fun e => .event e.1.evt.toInt e.2.length
  | .ls, [run, evt] => match eventAt cfg p.file run evt with
    | none => out = [.missing]
    | some e => out.length = e.2.length ∧ ∀ (i : Nat) x, e.2[i]? = some x → out[i]? = some (.collection i x.1 x.2.type x.2.elems.length)
  | .ls, run :: evt :: n :: _ => Contents cfg p.file run evt n true out
  | .cat short n, run :: evt :: _ => Contents cfg p.file run evt n short out
  | .dump _, [run] => ∃ file, out = ((runHeadersIn cfg ((allPuts p.file.2).map fun x => (file, x))).find? fun h => decide (h.run.toInt = run)).toList.map .header
  | .dump detailed, [run, evt] => out = (eventAt cfg p.file run evt).toList.map fun e => .whole e detailed
  | .dump _, run :: evt :: n :: _ => Contents cfg p.file run evt n false out
  | _, _ => out = []

/-- Every call, until the program ends, shows what it should. -/
def AllShown (cfg : RConfig) : LshPlace → List LshCall → List (List LshItem) → Prop
  | _, [], outs => outs = []
  | p, call :: calls, outs => match p.after cfg call with
    | none => outs = []
    | some p' => ∃ out rest, outs = out :: rest ∧ Shown cfg p call out ∧ AllShown cfg p' calls rest

end Spec
