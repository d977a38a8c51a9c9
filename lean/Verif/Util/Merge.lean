import Verif.Spec.Merge
/-
Model of the program lcio_merge_files, and of copyfix, which does the same with one file.
-/
namespace Util
open Sio Lcio Spec

/-- What is written for a run header or event that was delivered: `processRunHeader` and `processEvent` of the listener,
src/cpp/src/EXAMPLE/lcio_merge_files.cc:58-79, copyfix.cc:56-74. The object itself is written; elements of subsets are the objects pointed at. -/
def rewrite (buf : Str × Str) : Delivery → Put
  | .run h => .run h buf.1
  | .event e => .event e.1 (resolved e.2) buf

/-- The calls made for what was delivered; the `i`-th uses a buffer with the content `bufs i`. -/
def rewrites (bufs : Nat → Str × Str) : Nat → List Delivery → List Put
  | _, [] => []
  | i, d :: ds => rewrite (bufs i) d :: rewrites bufs (i + 1) ds

/-- The writer of the program, lcio_merge_files.cc:35-79: open a new file for writing, write what is delivered, and close the file. -/
def rewriteAll (codec : Codec) (std : Std Pid) (compress : Bool) (bufs : Nat → Str × Str) (ds : List Delivery) : Except Err (Option (List Byte)) := do
  let w ← ({} : Writer).openNew
  let w ← putAll codec std compress w (rewrites bufs 0 ds)
  let (_, file) ← w.close
  return file

/-- The program `lcio_merge_files`, src/cpp/src/EXAMPLE/lcio_merge_files.cc:84-137 (and `copyfix`, copyfix.cc:80-126, for one file): open the files, open a
new file for writing, write what `readStream` delivers, close the file. Returns the content of the new file, and what `readStream` returned or threw (the new file is
closed in any case, by the destructor of the listener). Reader and writer have nothing in common, so here everything is read before it is
written; this makes a difference only if writing throws, which is an error here. Output on the terminal is left out. -/
def mergeFiles (cfg : RConfig) (compress : Bool) (bufs : Nat → Str × Str) (files : List (Str × List Byte)) : Except Err (Option (List Byte) × Except Err Unit) :=
  match Reader.openFiles cfg false files with
  | (.error e, _) => .error e
  | (.ok (), r) => match r.readStream cfg 1 intMax with
    | (log, res, _) => do
      let file ← rewriteAll cfg.codec cfg.std compress bufs (log.map (·.2))
      return (file, res)

end Util
