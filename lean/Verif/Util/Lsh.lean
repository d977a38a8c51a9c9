import Verif.Lcio.Reopen
import Verif.Util.DumpEvent
import Verif.Util.Pid
/-
The LCIO shell `lsh`, src/cpp/src/EXAMPLE/lsh.cc: files, runs, events and collections are walked through like directories. Not modelled: signals, paging and redirection, the
commands `help`, `pager` and the one that is hidden, and how the numbers and names are laid out in columns.
-/
namespace Util
open Sio Lcio

/-- What is printed: the summary of the file (lsh.cc:312-318), a run, an event and a collection in a list (:360-373, 381-383, 400-401), that there is no event (:405), a collection (:333-343, with the short
or the long listing), a run header and an event (:512, 521-525, short or detailed). -/
inductive LshItem where
  | top (runs : Nat) (events : Option Nat)
  | run (number : Int) (descr : Str) (events : Option Nat)
  | event (number : Int) (collections : Nat)
  | collection (index : Nat) (name type : Str) (elements : Nat)
  | missing
  | contents (name : Str) (c : Collection) (short : Bool)
  | header (h : RunHeader)
  | whole (e : EventData) (detailed : Bool)

/-- The global variables, lsh.cc:58-79: where the user is, the maps of run headers and of numbers of events by run number, and the reader, which is made for direct access (:661). Numbers of events are not bounded. -/
structure Shell where
  position : List (Int × Str) := []
  runs : List (Int × Str) := []
  counts : List (Int × Nat) := []
  numEvents : Nat := 0
  withEvents : Bool := true
  reader : Reader := Reader.new true

/-- `lcReader->open( ... )` of a file that may not exist: the exception is not caught (src/cpp/src/MT/LCReader.cc:47-50). -/
def lshOpen (cfg : RConfig) (disk : Str → Option (List Byte)) (name : Str) (r : Reader) : Except Err Unit × Reader :=
  match disk name with
  | none => (.error .notOpen, r)
  | some bytes => r.openName cfg name bytes

/-- The loop over the run headers, lsh.cc:581-585: `insert` keeps the first entry. The first argument bounds their number. -/
def lshRunLoop (cfg : RConfig) : Nat → Reader → List (Int × Str) → List (Int × Nat) → Except Err (List (Int × Str) × List (Int × Nat) × Reader)
  | 0, _, _, _ => .error .diverge
  | fuel + 1, r, runs, counts => match r.readNextRunHeader cfg with
    | (.error e, _) => .error e
    | (.ok none, r) => .ok (runs, counts, r)
    | (.ok (some h), r) => lshRunLoop cfg fuel r (omInsert intLt h.run.toInt h.descr runs) (omInsert intLt h.run.toInt 0 counts)

/-- `(mapEventsInRun[run])++`. -/
def countUp (run : Int) (counts : List (Int × Nat)) : List (Int × Nat) := (omAssign intLt run ((omFind intLt run counts).getD 0 + 1) counts).1

/-- The loop over the events, lsh.cc:591-594. -/
def lshEventLoop (cfg : RConfig) : Nat → Reader → List (Int × Nat) → Nat → Except Err (List (Int × Nat) × Nat × Reader)
  | 0, _, _, _ => .error .diverge
  | fuel + 1, r, counts, n => match r.readNextEvent cfg with
    | (.error e, _) => .error e
    | (.ok none, r) => .ok (counts, n, r)
    | (.ok (some e), r) => lshEventLoop cfg fuel r (countUp e.1.run.toInt counts) (n + 1)

/-- `fun_open`, lsh.cc:551-598. -/
def Shell.openFile (cfg : RConfig) (disk : Str → Option (List Byte)) (fuel : Nat) (s : Shell) (name : Str) : Except Err Shell :=
  let withEvents := s.withEvents && !(match disk name with
    | some bytes => decide (bytes.length > 50000000)
    | none => false)
  match lshOpen cfg disk name s.reader with
  | (.error e, _) => .error e
  | (.ok (), r) => match lshRunLoop cfg fuel r [] [] with
    | .error e => .error e
    | .ok (runs, counts, r) =>
      let s := { s with position := [(0, name)], runs := runs, counts := counts, withEvents := withEvents, reader := r.close }
      if withEvents then
        match lshOpen cfg disk name s.reader with
        | (.error e, _) => .error e
        | (.ok (), r) => match lshEventLoop cfg fuel r counts s.numEvents with
          | .error e => .error e
          | .ok (counts, n, r) => .ok { s with counts := counts, numEvents := n, reader := r.close }
      else .ok s

/-- `printTop` and `lsRuns`, lsh.cc:312-318 and 360-373. -/
def Shell.listRuns (s : Shell) : List LshItem :=
  .top s.runs.length (if s.withEvents then some s.numEvents else none) ::
    s.runs.map fun x => .run x.1 x.2 (if s.withEvents then some ((omFind intLt x.1 s.counts).getD 0) else none)

/-- The loop of `lsEvents`, lsh.cc:378-387. -/
def lsEventLoop (cfg : RConfig) (run : Int) : Nat → Reader → Except Err (List LshItem × Reader)
  | 0, _ => .error .diverge
  | fuel + 1, r => match r.readNextEvent cfg with
    | (.error e, _) => .error e
    | (.ok none, r) => .ok ([], r)
    | (.ok (some e), r) => match lsEventLoop cfg run fuel r with
      | .error e => .error e
      | .ok (l, r) => .ok (if e.1.run.toInt = run then .event e.1.evt.toInt e.2.length :: l else l, r)

/-- `istringstream i(next); unsigned n; i >> n;`, lsh.cc:327-329 and 469-470, of a text without white space: 0 if it is not a number, the largest number if it is too large, and negative numbers are
taken modulo 2^32. -/
def readUnsigned (s : Str) : W32 :=
  let value (cs : Str) : W32 := if digits 0 cs < 2 ^ 32 then BitVec.ofNat 32 (digits 0 cs) else 0xffffffff
  match s with
  | 45 :: cs => if digits 0 cs < 2 ^ 32 then -(value cs) else 0xffffffff
  | 43 :: cs => value cs
  | cs => value cs

/-- Open the file of a position, read an event and close: lsh.cc:330-331, 393-394, 479-480, 519-520. -/
def Shell.fetch (cfg : RConfig) (disk : Str → Option (List Byte)) (s : Shell) (name : Str) (run evt : Int) : Except Err (Option EventData × Shell) :=
  match lshOpen cfg disk name s.reader with
  | (.error e, _) => .error e
  | (.ok (), r) => match r.readEvent cfg (BitVec.ofInt 32 run) (BitVec.ofInt 32 evt) with
    | (.error e, _) => .error e
    | (.ok e, r) => .ok (e, { s with reader := r.close })

/-- The collections of an event, lsh.cc:395-403. -/
def lsItems (cols : List (Str × Collection)) : List LshItem := cols.zipIdx.map fun x => .collection x.2 x.1.1 x.1.2.type x.1.2.elems.length

/-- `fun_print`, lsh.cc:323-347, of the collection with a number. -/
def Shell.print (cfg : RConfig) (disk : Str → Option (List Byte)) (s : Shell) (colNr : Str) (short : Bool) : Except Err (List LshItem × Shell) :=
  match s.position with
  | (_, name) :: (run, _) :: (evt, _) :: _ => match s.fetch cfg disk name run evt with
    | .error e => .error e
    | .ok (none, s) => .ok ([], s)
    | .ok (some e, s) => .ok (match e.2[(readUnsigned colNr).toNat]? with
      | some c => [.contents c.1 c.2 short]
      | none => [], s)
  | _ => .ok ([], s)

/-- `fun_ls`, lsh.cc:419-439. -/
def Shell.ls (cfg : RConfig) (disk : Str → Option (List Byte)) (fuel : Nat) (s : Shell) : Except Err (List LshItem × Shell) :=
  match s.position with
  | [_] => .ok (s.listRuns, s)
  | [(_, name), (run, _)] => match lshOpen cfg disk name s.reader with
    | (.error e, _) => .error e
    | (.ok (), r) => match lsEventLoop cfg run fuel r with
      | .error e => .error e
      | .ok (l, r) => .ok (l, { s with reader := r.close })
  | [(_, name), (run, _), (evt, _)] => match s.fetch cfg disk name run evt with
    | .error e => .error e
    | .ok (none, s) => .ok ([.missing], s)
    | .ok (some e, s) => .ok (lsItems e.2, s)
  | [_, _, _, (n, _)] => s.print cfg disk (decInt n) true
  | _ => .ok ([], s)

/-- `strtok` with `/`, lsh.cc:454-455 and 493: the parts that are not empty. The first argument is the part that is being read. -/
def pathLoop (part : Str) : Str → List Str
  | [] => if part = [] then [] else [part]
  | c :: cs => if c = 47 then (if part = [] then pathLoop [] cs else part :: pathLoop [] cs) else pathLoop (part ++ [c]) cs

/-- One part of a path, lsh.cc:457-491: none if the program is left (:463-465). -/
def Shell.enter (cfg : RConfig) (disk : Str → Option (List Byte)) (s : Shell) (next : Str) : Except Err (Option Shell) :=
  if next = str ".." then
    if s.position.length = 1 then .ok none else .ok (some { s with position := s.position.dropLast })
  else
    let n := readUnsigned next
    match s.position with
    | [_] => .ok (some { s with position := s.position ++ [(n.toInt, str "/run_" ++ next)] })
    | [_, _] => .ok (some { s with position := s.position ++ [(n.toInt, str "/evt_" ++ next)] })
    | [(_, name), (run, _), (evt, _)] => match s.fetch cfg disk name run evt with
      | .error e => .error e
      | .ok (none, s) => .ok (some s)
      | .ok (some e, s) => match e.2[n.toNat]? with
        | some c => .ok (some { s with position := s.position ++ [(n.toInt, str "/" ++ c.1)] })
        | none => .ok (some s)
    | _ => .ok (some s)

/-- The loop over the parts. -/
def Shell.enterAll (cfg : RConfig) (disk : Str → Option (List Byte)) : Shell → List Str → Except Err (Option Shell)
  | s, [] => .ok (some s)
  | s, next :: parts => match s.enter cfg disk next with
    | .error e => .error e
    | .ok none => .ok none
    | .ok (some s) => s.enterAll cfg disk parts

/-- `fun_cd`, lsh.cc:444-498. -/
def Shell.cd (cfg : RConfig) (disk : Str → Option (List Byte)) (s : Shell) (path : Str) : Except Err (Option Shell) := s.enterAll cfg disk (pathLoop [] path)

/-- The loop over the run headers of `fun_dump`, lsh.cc:508-514: it ends after one more header was read. -/
def dumpRunLoop (cfg : RConfig) (run : Int) : Nat → Reader → Bool → Except Err (List LshItem × Reader)
  | 0, _, _ => .error .diverge
  | fuel + 1, r, done => match r.readNextRunHeader cfg with
    | (.error e, _) => .error e
    | (.ok none, r) => .ok ([], r)
    | (.ok (some h), r) =>
      if done then .ok ([], r)
      else if h.run.toInt = run then
        match dumpRunLoop cfg run fuel r true with
        | .error e => .error e
        | .ok (l, r) => .ok (.header h :: l, r)
      else dumpRunLoop cfg run fuel r false

/-- `fun_dump`, lsh.cc:503-537. -/
def Shell.dump (cfg : RConfig) (disk : Str → Option (List Byte)) (fuel : Nat) (s : Shell) (detailed : Bool) : Except Err (List LshItem × Shell) :=
  match s.position with
  | [(_, name), (run, _)] => match lshOpen cfg disk name s.reader with
    | (.error e, _) => .error e
    | (.ok (), r) => match dumpRunLoop cfg run fuel r false with
      | .error e => .error e
      | .ok (l, r) => .ok (l, { s with reader := r.close })
  | [(_, name), (run, _), (evt, _)] => match s.fetch cfg disk name run evt with
    | .error e => .error e
    | .ok (none, s) => .ok ([], s)
    | .ok (some e, s) => .ok ([.whole e detailed], s)
  | [_, _, _, (n, _)] => s.print cfg disk (decInt n) false
  | _ => .ok ([], s)

/-- How a line is executed, lsh.cc:704-789, without redirection: none if the program ends. The words `commandVec[i]` are used without asking whether there are any. -/
def Shell.command (cfg : RConfig) (disk : Str → Option (List Byte)) (fuel : Nat) (s : Shell) : List Str → Except Err (Option (List LshItem × Shell))
  | [] => .error .ub
  | cmd :: args =>
    if cmd = str "exit" ∨ cmd = str "quit" then .ok none
    else if cmd = str "ls" then (s.ls cfg disk fuel).map some
    else if cmd = str "cl" ∨ cmd = str "cd" then
      match args with
      | [] => .error .ub
      | path :: _ => (s.cd cfg disk path).map fun s => s.map fun s => ([], s)
    else if cmd = str "print" ∨ cmd = str "cat" then
      match args with
      | [] => .error .ub
      | [nr] => (s.print cfg disk nr false).map some
      | flag :: nr :: _ => (s.print cfg disk nr (decide (flag = str "-s"))).map some
    else if cmd = str "dump" then (s.dump cfg disk fuel (decide (args.head? = some (str "-d")))).map some
    else if cmd = str "open" ∨ cmd = str "file" then
      match args with
      | [] => .error .ub
      | name :: _ => (s.openFile cfg disk fuel name).map fun s => some ([], s)
    else .ok (some ([], s))

/-- The main loop, lsh.cc:668-807, for some lines, which have been split into words: what they print. -/
def Shell.session (cfg : RConfig) (disk : Str → Option (List Byte)) (fuel : Nat) : Shell → List (List Str) → Except Err (List (List LshItem))
  | _, [] => .ok []
  | s, words :: lines => match s.command cfg disk fuel words with
    | .error e => .error e
    | .ok none => .ok []
    | .ok (some (out, s)) => (s.session cfg disk fuel lines).map (out :: ·)

/-- `main`, lsh.cc:637-807: the file given in the command line is opened, and the summary of it is printed (:665). -/
def lsh (cfg : RConfig) (disk : Str → Option (List Byte)) (fuel : Nat) (file : Str) (lines : List (List Str)) : Except Err (List (List LshItem)) :=
  match ({} : Shell).openFile cfg disk fuel file with
  | .error e => .error e
  | .ok s => (s.session cfg disk fuel lines).map ([.top s.runs.length (if s.withEvents then some s.numEvents else none)] :: ·)

end Util
