import Verif.Lcio.Reopen
import Verif.Lcio.Counts
import Verif.Util.DumpEvent
/-
The program `anajob`, src/cpp/src/EXAMPLE/anajob.cc.
-/
namespace Util
open Sio Lcio

/-- What the program prints: the line with the numbers of a file (:66-70), a run header (`LCTOOLS::dumpRunHeader`, :87), the line about an error (:93-95), an event (`LCTOOLS::dumpEvent`, :117;
its text is in C97) and the number of events (:122). The lists of file names are left out. -/
inductive AnaItem where
  | numbers (name : Str) (runs events : Nat)
  | run (h : RunHeader)
  | runError
  | event (e : EventData)
  | total (n : Nat)

/-- The loop over the files, anajob.cc:62-73: one reader is opened and closed for each of them. `LCReader::open` throws if the file cannot be opened, src/cpp/src/MT/LCReader.cc:47-50. -/
def anaNumbers (cfg : RConfig) (disk : Str → Option (List Byte)) : List Str → Reader → Except Err (List AnaItem × Reader)
  | [], r => .ok ([], r)
  | name :: names, r => match disk name with
    | none => .error .notOpen
    | some bytes => match r.openName cfg name bytes with
      | (.error e, _) => .error e
      | (.ok (), r) => match r.getNumberOfRuns cfg with
        | (.error e, _) => .error e
        | (.ok runs, r) => match r.getNumberOfEvents cfg with
          | (.error e, _) => .error e
          | (.ok events, r) => match anaNumbers cfg disk names r.close with
            | .error e => .error e
            | .ok (l, r) => .ok (.numbers name runs events :: l, r)

/-- The loop over the run headers, anajob.cc:81-95; an `IOException` is caught. The first argument bounds their number. -/
def anaRuns (cfg : RConfig) : Nat → Reader → Except Err (List AnaItem × Reader)
  | 0, _ => .error .diverge
  | fuel + 1, r => match r.readNextRunHeader cfg with
    | (.error .ioException, r) => .ok ([.runError], r)
    | (.error e, _) => .error e
    | (.ok none, r) => .ok ([], r)
    | (.ok (some h), r) => match anaRuns cfg fuel r with
      | .error e => .error e
      | .ok (l, r) => .ok (.run h :: l, r)

/-- The loop over the events, anajob.cc:111-122. -/
def anaEvents (cfg : RConfig) : Nat → Nat → Reader → Except Err (List AnaItem)
  | 0, _, _ => .error .diverge
  | fuel + 1, n, r => match r.readNextEvent cfg with
    | (.error e, _) => .error e
    | (.ok none, _) => .ok [.total n]
    | (.ok (some e), r) => match anaEvents cfg fuel (n + 1) r with
      | .error e => .error e
      | .ok l => .ok (.event e :: l)

/-- The files with these names. -/
def filesNamed (disk : Str → Option (List Byte)) : List Str → Except Err (List (Str × List Byte))
  | [] => .ok []
  | name :: names => match disk name with
    | none => .error .notOpen
    | some bytes => match filesNamed disk names with
      | .error e => .error e
      | .ok l => .ok ((name, bytes) :: l)

/-- `main`, anajob.cc:23-136: none if the usage is shown (:26-31). `args` are the names after that of the program, `env` is the variable `LCIO_READ_COL_NAMES` (:41-56, as in `dumpevent`). -/
def anajob (cfg : RConfig) (disk : Str → Option (List Byte)) (env : Option Str) (fuel : Nat) (args : List Str) : Except Err (Option (List AnaItem)) :=
  if args = [] then .ok none
  else match anaNumbers (dumpConfig cfg env) disk args (Reader.new false) with
    | .error e => .error e
    | .ok (numbers, r) => match filesNamed disk args with
      | .error e => .error e
      | .ok files => match r.openNames (dumpConfig cfg env) files with
        | (.error e, _) => .error e
        | (.ok (), r) => match anaRuns (dumpConfig cfg env) fuel r with
          | .error e => .error e
          | .ok (runs, r) => match r.close.openNames (dumpConfig cfg env) files with
            | (.error e, _) => .error e
            | (.ok (), r) => match anaEvents (dumpConfig cfg env) fuel 0 r with
              | .error e => .error e
              | .ok events => .ok (some (numbers ++ runs ++ events))

end Util
