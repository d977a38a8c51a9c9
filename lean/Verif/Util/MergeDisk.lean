import Verif.Util.Merge
import Verif.Lcio.FullDisk
/-
Model of the programs lcio_merge_files and copyfix on a disk that becomes full.
-/
namespace Util
open Sio Lcio Spec

/-- How the programs end: with status 0; with status 0 after the message "something went wrong" (src/cpp/src/EXAMPLE/lcio_merge_files.cc:132-136, copyfix.cc:121-125); by `std::terminate`, which
is called if an exception leaves a destructor. -/
inductive ProgramEnd where
  | done
  | message (e : Err)
  | terminated
deriving DecidableEq

/-- The calls of the writer that the listener makes until one of them throws, src/cpp/src/EXAMPLE/lcio_merge_files.cc:58-79: an exception of the listener leaves `readStream` (src/cpp/src/MT/LCReader.cc:429-536 has no handler for it that returns). -/
def putsUntil (codec : Codec) (std : Std Pid) (compress : Bool) : LimWriter → List Put → Except Err Unit × LimWriter
  | w, [] => (.ok (), w)
  | w, p :: ps => match w.put codec std compress p with
    | (.error e, w) => (.error e, w)
    | (.ok (), w) => putsUntil codec std compress w ps

/-- The end of the programs: the destructor of the listener closes the writer, lcio_merge_files.cc:50-54, copyfix.cc:48-52. Destructors are `noexcept`, so the program is terminated if `close` throws.
Otherwise an exception of `readStream` is caught by `main`. -/
def endOf (closed res : Except Err Unit) : ProgramEnd :=
  match closed with
  | .error _ => .terminated
  | .ok () => match res with
    | .error e => .message e
    | .ok () => .done

/-- The programs, src/cpp/src/EXAMPLE/lcio_merge_files.cc:84-137 and copyfix.cc:80-126, as `mergeFiles`, with room for `room` bytes in the new file. Returns how the program ends, and what is in the new file. Everything is read before it is written also here; if writing throws,
nothing that comes after is looked at. An error is what opening the files throws. Closing the reader is left out. -/
def mergeOnDisk (cfg : RConfig) (compress : Bool) (bufs : Nat → Str × Str) (room : Nat) (files : List (Str × List Byte)) : Except Err (ProgramEnd × Option (List Byte)) :=
  match Reader.openFiles cfg false files with
  | (.error e, _) => .error e
  | (.ok (), r) => match r.readStream cfg 1 intMax with
    | (log, res, _) => match ({} : LimWriter).openNew room with
      | (.error e, _) => .error e
      | (.ok (), w) =>
        let x := putsUntil cfg.codec cfg.std compress w (rewrites bufs 0 (log.map (·.2)))
        let c := x.2.close
        .ok (endOf c.1 (match x.1 with | .error e => .error e | .ok () => res), c.2.2)

end Util
