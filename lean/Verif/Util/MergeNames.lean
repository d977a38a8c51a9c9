import Verif.Util.MergeDisk
import Verif.Lcio.WriterUse
/-
Model of the program lcio_merge_files with the files it reads and writes.
-/
namespace Util
open Sio Lcio Spec

/-- How the program ends: by `exit(1)`, or as in `ProgramEnd`. -/
inductive MergeEnd where
  | exit1
  | ended (e : ProgramEnd)
deriving DecidableEq

/-- The program `lcio_merge_files`, src/cpp/src/EXAMPLE/lcio_merge_files.cc:84-137, with the name `out` of the new file and the names `ins` of the files to be read: how it ends, and the files afterwards. If no files are given (90-93), or one of
them does not exist (src/cpp/src/MT/LCReader.cc:62-82), it ends with status 1. Otherwise the first of the files is opened, but nothing is read from it (LCReader.cc:43-58); then the new file is opened (lcio_merge_files.cc:35-48), which makes it
empty if it exists; then everything is read. None if this is not modelled: if the new file is one of the files to be read, but not the first one (what is read from it depends on the sizes of buffers), or if writing throws. Two names
are the same file only if they are equal. -/
def mergeByName (cfg : RConfig) (compress : Bool) (bufs : Nat → Str × Str) (disk : Str → Option (List Byte)) (out : Str) (ins : List Str) : Option (MergeEnd × (Str → Option (List Byte))) :=
  if ins.isEmpty || ins.any fun n => (disk n).isNone then some (.exit1, disk)
  else
    let name := getSIOFileName out
    if name ∈ ins.tail then none
    else
      let emptied := setFile disk name []
      match mergeFiles cfg compress bufs (ins.map fun n => (n, (emptied n).getD [])) with
      | .error _ => none
      | .ok (file, res) => some (.ended (endOf (.ok ()) res), setFile emptied name (file.getD []))

/-- The program `copyfix`, src/cpp/src/EXAMPLE/copyfix.cc:80-126, with the names of the file to be read and of the new file. The file to be read is opened first, then the new file, which makes it empty if it exists. If the
file to be read does not exist, `open` (LCReader.cc:43-58) throws an exception that is no `IOException`: this is not caught where `exit(1)` is called (copyfix.cc:99-104), but at the end of `main`. None if writing throws. -/
def copyfixByName (cfg : RConfig) (compress : Bool) (bufs : Nat → Str × Str) (disk : Str → Option (List Byte)) (inName out : Str) : Option (MergeEnd × (Str → Option (List Byte))) :=
  match disk inName with
  | none => some (.ended (.message .notOpen), disk)
  | some _ =>
    let name := getSIOFileName out
    let emptied := setFile disk name []
    match mergeFiles cfg compress bufs [(inName, (emptied inName).getD [])] with
    | .error _ => none
    | .ok (file, res) => some (.ended (endOf (.ok ()) res), setFile emptied name (file.getD []))

end Util
