import Verif.Lcio.Writer
/-
The program `addRandomAccess`, src/cpp/src/EXAMPLE/addRandomAccess.cc, which adds the records for direct access to files that have none.
-/
namespace Util
open Sio Lcio

/-- The content of a file that exists is replaced; two names are the same file only if they are equal. -/
def diskSet (disk : List (Str × List Byte)) (name : Str) (bytes : List Byte) : List (Str × List Byte) :=
  disk.map fun f => if f.1 = name then (f.1, bytes) else f

/-- What option `-f` does to the content of a file, addRandomAccess.cc:61-78: look at the 16 bytes that start 112 bytes before the end (`fseek` does nothing if
the file is shorter), and write other bytes over them if they are the name of the random access record, or if there are less than 16. -/
def forceIgnore (bytes : List Byte) : List Byte :=
  let start := if bytes.length < 112 then 0 else bytes.length - 112
  let got := (bytes.drop start).take 16
  if got = accessName ∨ got.length ≠ 16 then
    let pos := start + got.length
    overwrite bytes (if pos < 16 then pos else pos - 16) (str "LCIORandomIGNORE")
  else bytes

/-- `lcWrt->open(name, WRITE_APPEND)`, src/cpp/src/SIO/SIOWriter.cc:51-93, as `Writer.openAppend`, with the writer and the content of the file also after an
exception. -/
def openAppendKeep (codec : Codec) (w : Writer) (file : Option (List Byte)) : Except Err Unit × Writer :=
  match file with
  | none => (.error .ioException, w)
  | some bytes => match w.ra.initAppend codec { bytes := bytes } with
    | (.error e, _, ra) => (.error e, { w with ra := ra })
    | (.ok hasRandomAccess, _, ra) => match w.stream with
      | some _ => (.error .notOpen, { w with ra := ra })
      | none =>
        if hasRandomAccess then
          let o : OStream := { bytes := bytes, pos := bytes.length - randomAccessSize }
          if bytes.length < randomAccessSize then (.error .ioException, { stream := some o, ra := ra })
          else (.ok (), { stream := some o, ra := ra })
        else (.ok (), { stream := some { bytes := [] }, ra := ra })

/-- The body of the loop over the files, addRandomAccess.cc:51-93, with the writer and the files afterwards. `fclose` of a null pointer is undefined. The name
for `fopen` is the argument; the writer adds the extension if it is missing. Other exceptions than `IOException` end the program, and then what is in the file
is what has been written so far: nothing, if the file was made empty. -/
def addAccessOne (codec : Codec) (force : Bool) (w : Writer) (disk : List (Str × List Byte)) (name : Str) : Except Err Writer × List (Str × List Byte) :=
  let forced : Except Err (List (Str × List Byte)) :=
    if force then match disk.lookup name with
      | none => .error .ub
      | some bytes => .ok (diskSet disk name (forceIgnore bytes))
    else .ok disk
  match forced with
  | .error e => (.error e, disk)
  | .ok disk =>
    let f := getSIOFileName name
    match openAppendKeep codec w (disk.lookup f) with
    | (.error .ioException, w) => (.ok w, disk)
    | (.error e, _) => (.error e, disk)
    | (.ok (), w) => match w.close with
      | .error .ioException => (.ok w, diskSet disk f ((w.stream.map (·.bytes)).getD []))
      | .error e => (.error e, diskSet disk f ((w.stream.map (·.bytes)).getD []))
      | .ok (w, none) => (.ok w, disk)
      | .ok (w, some bytes) => (.ok w, diskSet disk f bytes)

/-- The loop. -/
def addAccessLoop (codec : Codec) (force : Bool) : Writer → List (Str × List Byte) → List Str → Except Err Unit × List (Str × List Byte)
  | _, disk, [] => (.ok (), disk)
  | w, disk, name :: names => match addAccessOne codec force w disk name with
    | (.error e, disk) => (.error e, disk)
    | (.ok w, disk) => addAccessLoop codec force w disk names

/-- The program, addRandomAccess.cc:21-97, with a list of arguments: the files afterwards. -/
def addRandomAccess (codec : Codec) (args : List Str) (disk : List (Str × List Byte)) : Except Err Unit × List (Str × List Byte) :=
  match args with
  | [] => (.ok (), disk)
  | a :: rest => if a = str "-f" then addAccessLoop codec true {} disk rest else addAccessLoop codec false {} disk args

end Util
