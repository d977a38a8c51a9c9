import Verif.Lcio.Headers
/-
The Fortran interface, src/cpp/src/CPPFORT: arrays, strings, numbers of elements, vectors and parameters. A Fortran program has arrays and character arrays of fixed sizes; what is outside of them is undefined.
Simplified: vectors have fewer than 2^31 elements, so that sizes are not changed by the conversion to `int`.
-/
namespace Fort
open Sio Lcio

/-! ## Arrays of numbers and of pointers -/

/-- Writing to an array of the Fortran program, `*intv++ = x`. -/
def put {α : Type} (a : List α) (i : Nat) (x : α) : Except Err (List α) := if i < a.length then .ok (a.set i x) else .error .ub

/-- A loop that writes values one after the other. -/
def putAll {α : Type} (a : List α) (i : Nat) : List α → Except Err (List α)
  | [] => .ok a
  | x :: xs => match put a i x with
    | .error e => .error e
    | .ok a => putAll a (i + 1) xs

/-- `lcgetintvector`, `lcgetfloatvector`, `getintvector`, `getfloatvector`, `getpointervector`, lciof77apiext.cc:331-361,445-475,502-516, and `lctrkgetsubdetectorhitnumbers`, lctrk.cc:120-134, which does the same:
the array and the number after the call. The code returned is always `SUCCESS`. -/
def getVector {α : Type} (vec a : List α) (n : Int) : Except Err (List α × Int) :=
  let (len, n) : Int × Int := if (vec.length : Int) > n then (n, n) else (vec.length, vec.length)
  match putAll a 0 (vec.take len.toNat) with
  | .error e => .error e
  | .ok a => .ok (a, n)

/-- `lcintvectorcreate`, `lcfloatvectorcreate`, `lcobjectvectorcreate`, `intvectorcreate`, `floatvectorcreate`, `pointervectorcreate`, lciof77apiext.cc:297-316,389-393,401-405,432-436. -/
def createVector {α : Type} (a : List α) (n : Int) : Except Err (List α) := if n.toNat > a.length then .error .ub else .ok (a.take n.toNat)

/-- `lcvtxgetparameters`, lcvtx.cc:63-76, and `lcpidgetparameters`, lcpid.cc:51-64 (`lcclugethitcontributions`, lcclu.cc:116-128, is the same for clusters with a weight for each hit): the code, the array and the number after the call.
The last index is compared as `unsigned`. -/
def getParameters {α : Type} (vec a : List α) (n : Int) : Except Err (Bool × List α × Int) :=
  let ntot := ((n - 1) % 2 ^ 32).toNat
  match putAll a 0 (vec.take (ntot + 1)) with
  | .error e => .error e
  | .ok a => if vec.length > ntot + 1 then .ok (false, a, n) else .ok (true, a, vec.length + 1)

/-! ## Strings -/

/-- `c_str()` as seen by functions for C strings: up to the first NUL. -/
def cut (s : Str) : Str := s.takeWhile (· ≠ 0)

/-- `strcpy` to a place in a character array of the Fortran program. -/
def strcpy (buf : List Byte) (pos : Nat) (s : Str) : Except Err (List Byte) := putAll buf pos (cut s ++ [0])

/-- The string made of a `char*` into a character array of the Fortran program. -/
def stringAt (buf : List Byte) (pos : Nat) : Except Err Str := if (0 : Byte) ∈ buf.drop pos then .ok (cut (buf.drop pos)) else .error .ub

/-- The loop of `lcgetstringvector`, lciof77apiext.cc:376-381; `elemlen` is the length of an element. -/
def putStrings (elemlen : Nat) (buf : List Byte) (pos : Nat) : List Str → Except Err (List Byte)
  | [] => .ok buf
  | s :: ss => match strcpy buf pos s with
    | .error e => .error e
    | .ok buf => putStrings elemlen buf (pos + elemlen) ss

/-- The loop of `lcstringvectorcreate`, lciof77apiext.cc:323-327. -/
def readStrings (elemlen : Nat) (buf : List Byte) (pos : Nat) : Nat → Except Err (List Str)
  | 0 => .ok []
  | n + 1 => match stringAt buf pos with
    | .error e => .error e
    | .ok s => match readStrings elemlen buf (pos + elemlen) n with
      | .error e => .error e
      | .ok ss => .ok (s :: ss)

/-- `lcgetstringvector` and `getstringvector`, lciof77apiext.cc:364-384,478-498; `nch` is the length of the strings in the program, an element has one more for the NUL. -/
def getStrings (vec : List Str) (buf : List Byte) (n : Int) (nch : Nat) : Except Err (List Byte × Int) :=
  let (len, n) : Int × Int := if (vec.length : Int) > n then (n, n) else (vec.length, vec.length)
  match putStrings (nch + 1) buf 0 (vec.take len.toNat) with
  | .error e => .error e
  | .ok buf => .ok (buf, n)

/-- `lcstringvectorcreate` and `stringvectorcreate`, lciof77apiext.cc:318-329,413-424. -/
def createStrings (buf : List Byte) (n : Int) (nch : Nat) : Except Err (List Str) := readStrings (nch + 1) buf 0 n.toNat

/-! ## Run headers -/

/-- The run header that `lcwriterunheader` makes and gives to the writer, lciof77apiext.cc:61-80. Names and descriptions are C strings of the program. -/
def writeRunHeader (irun : W32) (detname description : Str) (sdnames : List Byte) (nsubd : Int) (nchsd : Nat) : Except Err RunHeader :=
  match readStrings (nchsd + 1) sdnames 0 nsubd.toNat with
  | .error e => .error e
  | .ok ss => .ok { run := irun, det := cut detname, descr := cut description, subdets := ss }

/-- What `lcreadnextrunheader` stores, lciof77apiext.cc:89-124, given what `readNextRunHeader` returns (`none` is the null pointer): the run number, the character arrays for the detector, the description and the subdetectors, and the number of subdetectors. -/
def readRunHeader (h : Option RunHeader) (detname description sdnames : List Byte) (nchsubd : Nat) : Except Err (W32 × List Byte × List Byte × List Byte × Int) :=
  match h with
  | none => .error .ub
  | some h => match strcpy detname 0 h.det with
    | .error e => .error e
    | .ok det => match strcpy description 0 h.descr with
      | .error e => .error e
      | .ok descr => match putStrings (nchsubd + 1) sdnames 0 h.subdets with
        | .error e => .error e
        | .ok sd => .ok (h.run, det, descr, sd, h.subdets.length)

/-! ## Elements by number -/

/-- The functions that return the element of some list for a number. -/
inductive Access where
  /-- `lccolgetelementat`, lccol.cc:42-46 -/
  | collection
  /-- `lcmcpgetparent`, lcmcp.cc:31-34 -/
  | parent
  /-- `lcmcpgetdaughter`, lcmcp.cc:39-42 -/
  | daughter
  /-- `lcschgetparticlecont`, lcsch.cc:55-58 -/
  | particleCont
  /-- `lcschgetenergycont`, `lcschgettimecont`, `lcschgetpdgcont`, lcsch.cc:59-70 -/
  | cont
  /-- `lctphgetrawdataword`, lctph.cc:46-49 -/
  | rawData
  /-- `lcgobgetintval`, `lcgobgetfloatval`, `lcgobgetdoubleval`, lcgob.cc:48-61 -/
  | generic
  /-- `lcivcgetintat`, `lcfvcgetfloatat`, `lcsvcgetstringat`, `intvectorgetelement` and so on, lcvec.cc -/
  | vector
  /-- `lcobvgetobject`, `lcobvgetobjectid`, `lcobvgetweight`, lcobv.cc:23-52 -/
  | related
  /-- `lcsthgetposition`, `lcsthgetmomentum`, lcsth.cc:40-48 -/
  | simTrackerHit
  /-- `lcgetsimtrackerhit`, lciof77apiext.cc:206-217 -/
  | simTrackerHits
  /-- `lcgetsimcalohit`, lciof77apiext.cc:233-252: the test `i < 0 && i > Nelements-1` is never true -/
  | simCaloHits
  /-- `lcgetsimcalohitmccont`, lciof77apiext.cc:254-270: the same test, then `getParticleCont` -/
  | simCaloHitCont
  deriving DecidableEq

/-- `operator[]` of a vector. -/
def index {α : Type} (l : List α) (i : Int) : Except Err α := if i < 0 then .error .ub else match l[i.toNat]? with
  | none => .error .ub
  | some x => .ok x

/-- `at()`, or a test of the index, followed by an exception. -/
def indexAt {α : Type} (l : List α) (i : Int) (e : Err) : Except Err α := if i < 0 then .error e else match l[i.toNat]? with
  | none => .error e
  | some x => .ok x

/-- The element that is returned (see the constructors of `Access` for the places). -/
def Access.get {α : Type} (l : List α) (i : Int) : Access → Except Err α
  | .collection => index l (i - 1)
  | .parent => index l i
  | .daughter => index l (i - 1)
  | .particleCont => indexAt l (i - 1) .lcException
  | .cont => index l (i - 1)
  | .rawData => indexAt l (i - 1) .notAvailable
  | .generic => index l (i - 1)
  | .vector => index l (i - 1)
  | .related => if i < 1 ∨ i > (l.length : Int) then .error .lcException else index l (i - 1)
  | .simTrackerHit => index l i
  | .simTrackerHits => index l (i - 1)
  | .simCaloHits => if i < 0 ∧ i > (l.length : Int) - 1 then .error .lcException else index l (i - 1)
  | .simCaloHitCont => if i < 0 ∧ i > (l.length : Int) - 1 then .error .lcException else indexAt l (i - 1) .lcException

/-- `lccolremoveelementat`, lccol.cc:88-94, and `LCCollectionVec::removeElementAt`, src/cpp/src/IMPL/LCCollectionVec.cc:111-118: the code and the elements after the call. -/
def removeElementAt {α : Type} (readOnly : Bool) (l : List α) (i : Int) : Except Err (Bool × List α) :=
  if readOnly then .ok (false, l)
  else if i < 0 ∨ i ≥ (l.length : Int) then .error .ub
  else .ok (true, l.eraseIdx i.toNat)

/-! ## Vectors and parameters -/

/-- What a pointer to a vector points at: a `std::vector` (made by `intvectorcreate` and so on), or an object (made by `lcintvectorcreate` and so on), which is an `LCObject` first and has the `std::vector` as its second part
(src/cpp/include/pre-generated/EVENT/LCIntVec.h:24). -/
inductive Vector where
  | null
  | ints (l : List W32) | floats (l : List W32) | strs (l : List Str)
  | lcInts (l : List W32) | lcFloats (l : List W32) | lcStrs (l : List Str)
  deriving DecidableEq

/-- `do_set_method`, lciof77apiext.cc:561-582: the pointer is reinterpreted as one to a `std::vector`. The code, and the parameters after the call; exceptions of the setters leave the function. -/
def setMethod (p : Params) (method key : Str) (v : Vector) : Except Err (Bool × Params) :=
  if method = str "setIntValues" then match v with
    | .ints l => match p.setInts key l with
      | .error e => .error e
      | .ok p => .ok (true, p)
    | _ => .error .ub
  else if method = str "setFloatValues" then match v with
    | .floats l => match p.setFloats key l with
      | .error e => .error e
      | .ok p => .ok (true, p)
    | _ => .error .ub
  else if method = str "setStringValues" then match v with
    | .strs l => match p.setStrs key l with
      | .error e => .error e
      | .ok p => .ok (true, p)
    | _ => .error .ub
  else .ok (false, p)

/-- `do_get_method`, lciof77apiext.cc:584-622: the pointer is taken for one to an `LCObject`, and cast to its part that is a `std::vector` (`f2c_pointer`, src/cpp/include/CPPFORT/cpointer.h:23-30). For a `std::vector` this is undefined, for objects of
another type, and for null, the reference to the vector is made of a null pointer. -/
def getMethod (p : Params) (method key : Str) (v : Vector) : Except Err (Bool × Vector) :=
  if method = str "getIntValues" then match v with
    | .lcInts l => .ok (true, .lcInts (getVals p.ints key l))
    | _ => .error .ub
  else if method = str "getFloatValues" then match v with
    | .lcFloats l => .ok (true, .lcFloats (getVals p.floats key l))
    | _ => .error .ub
  else if method = str "getStringValues" then match v with
    | .lcStrs l => .ok (true, .lcStrs (getVals p.strs key l))
    | _ => .error .ub
  else if method = str "getIntKeys" then match v with
    | .lcStrs l => .ok (true, .lcStrs (getKeys p.ints l))
    | _ => .error .ub
  else if method = str "getFloatKeys" then match v with
    | .lcStrs l => .ok (true, .lcStrs (getKeys p.floats l))
    | _ => .error .ub
  else if method = str "getStringtKeys" then match v with
    | .lcStrs l => .ok (true, .lcStrs (getKeys p.strs l))
    | _ => .error .ub
  else .ok (false, v)

end Fort
