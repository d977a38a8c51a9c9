import Verif.Util.Fortran
import Verif.Lcio.FullDisk
import Verif.Lcio.Reader
/-
The Fortran interface, src/cpp/src/CPPFORT: the functions that open, write, read and close files, and what a Fortran program sees of exceptions. The pointers a program gives are those of a writer, a reader, a run header or an event.
-/
namespace Fort
open Sio Lcio Spec

/-- How a call of a function of the interface ends: it returns a value, an exception leaves the function (then `std::terminate` ends the program, because no caller of a function called by Fortran catches it), or what happens is undefined or
the function does not return. -/
inductive Ending (α : Type) where
  | returns (a : α)
  | terminated
  | undefined
  deriving DecidableEq, Repr

/-- `LCIO::ERROR` and `LCIO::SUCCESS`, cmake/LCIO.h.in:99-100. -/
def errorCode : Int := 0
def successCode : Int := 1

/-- Undefined behaviour and endless loops are not exceptions. -/
def isException : Err → Bool
  | .ub => false
  | .diverge => false
  | _ => true

/-- The exceptions that are an `EVENT::Exception`, src/cpp/include/Exceptions.h:21-118; the others are `sio::exception`, sio/include/sio/exception.h:61, or from the standard library. -/
def isLcioException : Err → Bool
  | .lcException => true
  | .eventException => true
  | .notAvailable => true
  | .readOnly => true
  | .ioException => true
  | .endOfData => true
  | _ => false

/-- `try { ... } catch(...) { return LCIO::ERROR ; } return LCIO::SUCCESS ;`, for example lcwrt.cc:27-33. -/
def catchAll : Except Err Unit → Ending Int
  | .ok () => .returns successCode
  | .error e => if isException e then .returns errorCode else .undefined

/-- `try { ... } catch( Exception& e1) { ... }`, for example lciof77apiext.cc:64-86: what is returned in the two cases. -/
def catchLcio {α : Type} (caught : α) : Except Err α → Ending α
  | .ok a => .returns a
  | .error e => if isLcioException e then .returns caught else if isException e then .terminated else .undefined

/-- A function that does not catch exceptions. -/
def catchNone {α : Type} : Except Err α → Ending α
  | .ok a => .returns a
  | .error e => if isException e then .terminated else .undefined

/-! ## Writing -/

/-- `lcwrtopen`, lcwrt.cc:27-35, with a writer that is not open, on a disk where the file cannot become longer than some limit. The program gives `LCIO_WRITE_NEW` if there is no such file and `LCIO_WRITE_APPEND` otherwise. -/
def lcwrtopen (codec : Codec) (limit : Nat) (ra : RaMgr) (file : Option (List Byte)) : Ending Int × LimWriter :=
  match file with
  | none =>
    let r := ({ ra := ra } : LimWriter).openNew limit
    (catchAll r.1, r.2)
  | some bytes => match LimWriter.openAppend codec limit ra bytes with
    | .error e => (catchAll (.error e), { ra := ra })
    | .ok w => (catchAll (.ok ()), w)

/-- `lcwrtwriterunheader` and `lcwrtwriteevent`, lcwrt.cc:46-69. -/
def lcwrtwrite (codec : Codec) (std : Std Pid) (compress : Bool) (w : LimWriter) (p : Put) : Ending Int × LimWriter :=
  let r := w.put codec std compress p
  (catchAll r.1, r.2)

/-- `lcwrtclose`, lcwrt.cc:37-44, and what is in the file. -/
def lcwrtclose (w : LimWriter) : Ending Int × LimWriter × Option (List Byte) :=
  let r := w.close
  (catchAll r.1, r.2.1, r.2.2)

/-- Calls one after the other, by a program that goes on whatever they return. -/
def lcwrtwrites (codec : Codec) (std : Std Pid) (compress : Bool) : LimWriter → List Put → List (Ending Int) × LimWriter
  | w, [] => ([], w)
  | w, p :: ps =>
    let r := lcwrtwrite codec std compress w p
    let rest := lcwrtwrites codec std compress r.2 ps
    (r.1 :: rest.1, rest.2)

/-- What a program that writes a file sees: what opening, writing and closing return; and what is in the file. -/
structure Written where
  opened : Ending Int
  written : List (Ending Int)
  closed : Ending Int
  file : Option (List Byte)

/-- A Fortran program that opens a file, writes and closes it. -/
def writeFile (codec : Codec) (std : Std Pid) (limit : Nat) (ra : RaMgr) (file : Option (List Byte)) (s : Session) : Written :=
  let o := lcwrtopen codec limit ra file
  let r := lcwrtwrites codec std s.compress o.2 s.puts
  let c := lcwrtclose r.2
  { opened := o.1, written := r.1, closed := c.1, file := c.2.2 }

/-- `lcwriterunheader`, lciof77apiext.cc:61-87. It catches only `EVENT::Exception`. -/
def lcwriterunheader (codec : Codec) (compress : Bool) (buf : List Byte) (w : LimWriter) (irun : W32) (detname description : Str) (sdnames : List Byte) (nsubd : Int) (nchsd : Nat) : Ending Int × LimWriter :=
  match writeRunHeader irun detname description sdnames nsubd nchsd with
  | .error e => (catchLcio errorCode (.error e), w)
  | .ok h =>
    let r := w.writeRunHeader codec compress buf h
    (catchLcio errorCode (r.1.map fun _ => successCode), r.2)

/-! ## Reading -/

/-- `lcrdrreadnextrunheader` and `lcrdrreadnextevent`, lcrdr.cc:47-55: what the pointer leads to, `none` if it is 0. Exceptions are not caught. -/
def lcrdrread (cfg : RConfig) (r : Reader) (g : Get) : Ending (Option Delivery) × Reader :=
  let x := g.call cfg r
  (catchNone x.1, x.2)

/-- Calls one after the other, until 0 is returned or the program ends. -/
def lcrdrreads (cfg : RConfig) : List Get → Reader → List (Ending (Option Delivery))
  | [], _ => []
  | g :: gs, r => match lcrdrread cfg r g with
    | (.returns (some d), r) => .returns (some d) :: lcrdrreads cfg gs r
    | (e, _) => [e]

/-- `lcreadnextrunheader`, lciof77apiext.cc:89-125: `none` for the code of an error, otherwise what is stored in the variables of the program. -/
def lcreadnextrunheader (cfg : RConfig) (r : Reader) (detname description sdnames : List Byte) (nchsubd : Nat) : Ending (Option (W32 × List Byte × List Byte × List Byte × Int)) × Reader :=
  match r.readNextRunHeader cfg with
  | (.error e, r) => (catchLcio none (.error e), r)
  | (.ok h, r) => (catchLcio none ((readRunHeader h detname description sdnames nchsubd).map some), r)

end Fort
