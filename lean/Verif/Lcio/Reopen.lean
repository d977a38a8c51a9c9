import Verif.Lcio.Counts
import Verif.Spec.Sessions
/-
Readers that are used for several files or lists of files one after the other.
-/
namespace Lcio
open Sio

/-- A new reader, `LCReader::LCReader`, src/cpp/src/MT/LCReader.cc:25-39. -/
def Reader.new (direct : Bool) : Reader := { files := [], stream := { bytes := [], isOpen := false }, readMap := direct }

/-- `LCReader::open(filename)`, LCReader.cc:43-58, of an existing file, with any reader: the name is remembered only if there is none yet. -/
def Reader.openName (cfg : RConfig) (r : Reader) (name : Str) (bytes : List Byte) : Except Err Unit × Reader :=
  match r.openFile cfg bytes with
  | (.error e, r) => (.error e, r)
  | (.ok (), r) => (.ok (), if r.files.isEmpty then { r with files := [(name, bytes)] } else r)

/-- `LCReader::open(filenames)`, LCReader.cc:62-82, of existing files, with any reader. -/
def Reader.openNames (cfg : RConfig) (r : Reader) (files : List (Str × List Byte)) : Except Err Unit × Reader :=
  match files with
  | [] => (.error .ioException, r)
  | f :: _ => ({ r with files := files, index := 0 } : Reader).openName cfg f.1 f.2

end Lcio

namespace Spec
open Sio Lcio

/-- A reader opens files one after the other, with one name each time, makes some calls and is closed. -/
def usedBy (cfg : RConfig) : List (Str × List Byte × List Get) → Reader → Reader
  | [], r => r
  | (name, bytes, gs) :: uses, r => usedBy cfg uses (afterGets cfg gs (r.openName cfg name bytes).2).close

end Spec
