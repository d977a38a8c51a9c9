import Verif.Lcio.Counts
/-
The program `lcio_event_counter`.
-/
namespace Util
open Sio Lcio

/-- `FILEN[i].substr(FILEN[i].rfind(".") + 1)`, src/cpp/src/EXAMPLE/lcio_event_counter.cc:38: what follows the last dot, or everything (`npos + 1` is 0). -/
def afterDot (name : Str) : Str := (name.reverse.takeWhile fun c => c ≠ 46).reverse

/-- One file, lcio_event_counter.cc:35-69. The files on the disk are given by names and contents; `headers` is what `LCStdHepRdr::getNumberOfEvents` returns for a StdHep file (a number in its
header), or the exception that opening it throws. -/
def countFile (cfg : RConfig) (disk : List (Str × List Byte)) (headers : Str → Except Err Int) (name : Str) : Except Err Int :=
  if afterDot name = str "stdhep" then
    match headers name with
    | .error e => .error e
    | .ok n => .ok (n - 1)
  else match disk.lookup name with
    | none => .error .notOpen
    | some bytes => match Reader.openFiles cfg false [(name, bytes)] with
      | (.error e, _) => .error e
      | (.ok (), r) => match (r.getNumberOfEvents cfg).1 with
        | .error e => .error e
        | .ok n => .ok n

/-- `main`, lcio_event_counter.cc:18-76, called with at least one name: the number that is printed. The sum is not reduced to 64 bits. -/
def eventCounter (cfg : RConfig) (disk : List (Str × List Byte)) (headers : Str → Except Err Int) : Int → List Str → Except Err Int
  | total, [] => .ok total
  | total, name :: names => match countFile cfg disk headers name with
    | .error e => .error e
    | .ok n => eventCounter cfg disk headers (total + n) names

end Util
