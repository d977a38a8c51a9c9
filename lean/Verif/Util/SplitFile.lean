import Verif.Util.Merge
import Verif.Spec.Split
/-
Model of the program lcio_split_file.
-/
namespace Util
open Sio Lcio Spec

/-- Whether an event was delivered: then `processEvent` is called, and counts it. -/
def countedEvent : Delivery → Bool
  | .event _ => true
  | .run _ => false

/-- The program `lcio_split_file`, src/cpp/src/EXAMPLE/lcio_split_file.cc:80-129: open the file to be read, open a new file with a split writer (29-47), write what `readStream` delivers (54-75), close (49-53). Returns the files afterwards,
the number of events that is printed, and what `readStream` returned or threw. An exception of `open` ends the program; so does one while writing. The number in the third argument is given; if it
is no number, the limit is 0. As in `mergeFiles` everything is read before it is written. -/
def splitFile (cfg : RConfig) (compress : Bool) (bufs : Nat → Str × Str) (disk : List (Str × List Byte)) (inName outName : Str) (splitSize : Int) :
    Except Err (List (Str × List Byte) × Nat × Except Err Unit) :=
  match disk.lookup inName with
  | none => .error .ioException
  | some bytes => match Reader.openFiles cfg false [(inName, bytes)] with
    | (.error e, _) => .error e
    | (.ok (), r) => match r.readStream cfg 1 intMax with
      | (log, res, _) => do
        let s ← splitSession cfg.codec cfg.std compress { maxBytes := splitSize, disk := disk } outName (rewrites bufs 0 (log.map (·.2)))
        return (s.disk, (log.filter fun x => countedEvent x.2).length, res)

end Util
