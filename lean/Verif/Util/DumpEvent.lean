import Verif.Lcio.Reader
import Verif.Util.Text
/-
The program `dumpevent`, src/cpp/src/EXAMPLE/dumpevent.cc.
-/
namespace Util
open Sio Lcio

/-- `atoi`, of the C library, as `atol` but for `int`: white space, an optional sign, digits; the rest is ignored. The behaviour is undefined if the number does not fit. -/
def atoi (s : Str) : Except Err Int :=
  let s := s.dropWhile isSpace
  let n : Int := match s with
    | 45 :: cs => -(digits 0 cs)
    | 43 :: cs => digits 0 cs
    | cs => digits 0 cs
  if n < -2 ^ 31 ∨ 2 ^ 31 ≤ n then .error .ub else .ok n

/-- The loop `while( sts >> colName )`, dumpevent.cc:89-92: words separated by white space. The first argument is the word that is being read. -/
def wordsLoop (word : Str) : Str → List Str
  | [] => if word = [] then [] else [word]
  | c :: cs => if isSpace c then (if word = [] then wordsLoop [] cs else word :: wordsLoop [] cs) else wordsLoop (word ++ [c]) cs

/-- The words of a text, dumpevent.cc:85-92. -/
def words (s : Str) : List Str := wordsLoop [] s

/-- How the program ends: the usage is shown (:32-42 and 53-58), the event is not found (:124-137), an `IOException` is reported (:145-148), all with status 1; or the event is
given to `LCTOOLS::dumpEventDetailed` (:139) and the status is 0. The texts are not modelled. -/
inductive Dumped where
  | usage
  | notFound
  | failed
  | event (e : EventData)

/-- The result of reading, dumpevent.cc:124-148: only an `IOException` is caught. -/
def dumpResult : Except Err (Option EventData) → Except Err Dumped
  | .error .ioException => .ok .failed
  | .error e => .error e
  | .ok none => .ok .notFound
  | .ok (some e) => .ok (.event e)

/-- The `n`th event of a file, dumpevent.cc:53-58, 72-111. `LCReader::open` throws if the file cannot be opened, src/cpp/src/MT/LCReader.cc:47-50. -/
def dumpNth (cfg : RConfig) (disk : Str → Option (List Byte)) (file : Str) (n : Int) : Except Err Dumped :=
  if n < 1 then .ok .usage else
  match disk file with
  | none => .error .notOpen
  | some bytes => match Reader.openFiles cfg false [(file, bytes)] with
    | (.error e, _) => dumpResult (.error e)
    | (.ok (), r) => match r.skipNEvents (n - 1) with
      | (.error e, _) => dumpResult (.error e)
      | (.ok (), r) => dumpResult (r.readNextEvent cfg).1

/-- The event with given numbers, with direct access, dumpevent.cc:72-116. -/
def dumpRunEvent (cfg : RConfig) (disk : Str → Option (List Byte)) (file : Str) (run evt : Int) : Except Err Dumped :=
  match disk file with
  | none => .error .notOpen
  | some bytes => match Reader.openFiles cfg true [(file, bytes)] with
    | (.error e, _) => dumpResult (.error e)
    | (.ok (), r) => dumpResult (r.readEvent cfg (BitVec.ofInt 32 run) (BitVec.ofInt 32 evt)).1

/-- The collections to be read, dumpevent.cc:79-95. -/
def dumpConfig (cfg : RConfig) : Option Str → RConfig
  | none => cfg
  | some s => { cfg with wanted := words s }

/-- `main`, dumpevent.cc:23-155. `args` are the arguments after the name of the program, `env` is the variable `LCIO_READ_COL_NAMES`, `disk` are the files. An exception that is
not caught ends the program in another way. -/
def dumpMain (cfg : RConfig) (disk : Str → Option (List Byte)) (env : Option Str) : List Str → Except Err Dumped
  | [] => .ok .usage
  | [_] => .ok .usage
  | [file, n] => match atoi n with
    | .error e => .error e
    | .ok n => dumpNth (dumpConfig cfg env) disk file n
  | file :: run :: evt :: _ => match atoi run with
    | .error e => .error e
    | .ok run => match atoi evt with
      | .error e => .error e
      | .ok evt => dumpRunEvent (dumpConfig cfg env) disk file run evt

end Util
