import Verif.Util.Dump
import Verif.Util.Time
/-
Printing with the operators of src/cpp/src/UTIL/Operators.cc: `cout << lcshort( obj )` for a line and `cout << *obj`, that is `cout << lcio_long( *obj, NULL )`, for the details. What
is printed depends on the format of the stream, which the operators change and do not set back.
-/
namespace Util
open Sio Lcio

/-! ## Streams -/

/-- `floatfield` of a stream: none, `scientific` or `fixed`. -/
inductive FloatForm
  | general
  | scientific
  | fixed
  deriving DecidableEq, Repr

/-- The format of a `std::ostream`: base, alignment, fill character, `showpos`, form and precision of floating point numbers and the width of what is printed next. No operator changes
anything else (`boolalpha`, `showbase`, `uppercase`, the locale …). -/
structure Format where
  hex : Bool
  left : Bool
  fill : Byte
  plus : Bool
  form : FloatForm
  prec : Nat
  width : Nat
  deriving DecidableEq, Repr

/-- The format of a stream that is new, such as `cout` at the beginning or a `std::stringstream`. -/
def Format.fresh : Format := ⟨false, false, 32, false, .general, 6, 0⟩

/-- What is given to a stream by `<<`: texts, integers (`int`, `bool` as `int`, `long long` and `size_t`), floating point numbers, `endl` and the manipulators. -/
inductive Piece
  | text (s : Str)
  | int (n : W32)
  | long (n : W64)
  | size (n : W64)
  | float (x : W32)
  | double (x : W64)
  | endl
  | setw (n : Nat)
  | setfill (c : Byte)
  | dec
  | hex
  | left
  | right
  | showpos
  | noshowpos
  | scientific
  | fixed
  | setprecision (n : Nat)
  deriving DecidableEq, Repr

/-- How the library prints floating point numbers, which is not modelled: a function of the form, the precision, `showpos` and the number. -/
structure FloatText where
  float : FloatForm → Nat → Bool → W32 → Str
  double : FloatForm → Nat → Bool → W64 → Str

/-- Hexadecimal digits; the first argument bounds the recursion. -/
def hexLoop : Nat → Nat → Str
  | 0, _ => []
  | fuel+1, n => (if n < 16 then [] else hexLoop fuel (n / 16)) ++ [UInt8.ofNat (if n % 16 < 10 then 48 + n % 16 else 87 + n % 16)]

/-- A signed number: with `hex` the bits are printed as an unsigned number, and `showpos` has no effect. -/
def signedText (f : Format) (bits : Nat) (n : Int) : Str :=
  if f.hex then hexLoop (bits + 1) bits else (if f.plus ∧ 0 ≤ n then str "+" else []) ++ decInt n

/-- Texts are filled up to the width, on the left unless `left` was given. -/
def Format.pad (f : Format) (s : Str) : Str :=
  if f.left then s ++ List.replicate (f.width - s.length) f.fill else List.replicate (f.width - s.length) f.fill ++ s

/-- What `<<` prints. -/
def Format.print (num : FloatText) (f : Format) : Piece → Str
  | .text s => f.pad s
  | .int n => f.pad (signedText f n.toNat n.toInt)
  | .long n => f.pad (signedText f n.toNat n.toInt)
  | .size n => f.pad (if f.hex then hexLoop (n.toNat + 1) n.toNat else Util.dec n.toNat)
  | .float x => f.pad (num.float f.form f.prec f.plus x)
  | .double x => f.pad (num.double f.form f.prec f.plus x)
  | .endl => eol
  | _ => []

/-- The format after it: what is printed sets the width back to zero, `endl` (which uses `put`) does not. -/
def Format.next (f : Format) : Piece → Format
  | .text _ | .int _ | .long _ | .size _ | .float _ | .double _ => { f with width := 0 }
  | .endl => f
  | .setw n => { f with width := n }
  | .setfill c => { f with fill := c }
  | .dec => { f with hex := false }
  | .hex => { f with hex := true }
  | .left => { f with left := true }
  | .right => { f with left := false }
  | .showpos => { f with plus := true }
  | .noshowpos => { f with plus := false }
  | .scientific => { f with form := .scientific }
  | .fixed => { f with form := .fixed }
  | .setprecision n => { f with prec := n }

/-- The format after several. -/
def Format.after (f : Format) (ps : List Piece) : Format := ps.foldl Format.next f

/-- What several print, one after the other. -/
def Format.printAll (num : FloatText) : Format → List Piece → Str
  | _, [] => []
  | f, p :: ps => f.print num p ++ Format.printAll num (f.next p) ps

/-! ## Objects -/

/-- `bool` is printed as a number. -/
def boolPiece (b : Bool) : Piece := .int (if b then 1 else 0)

/-- A text that is written in the code. -/
def lit (s : String) : Piece := .text (str s)

/-- `out << setw(30) << setfill(' ') << left << name << right << setw(40)`, how the detailed texts begin their lines. -/
def row (name : String) : List Piece := [.setw 30, .setfill 32, .left, lit name, .right, .setw 40]

/-- The same with `setfill(' ')` behind the name once more. -/
def row' (name : String) : List Piece := [.setw 30, .setfill 32, .left, lit name, .setfill 32, .right, .setw 40]

/-- The first line of the detailed texts and the test of the collection, such as Operators.cc:115-125: if there is a collection of another type, there is just a warning. `col`: the type of
the collection, if one was given to `lcio_long`. -/
def titled (title name : String) (col : Option Str) (body : List Piece) : List Piece :=
  [.noshowpos, .setw 41, .setfill 45, .right, lit title, .setfill 45, .setw 29, lit "-", .endl] ++
    match col with
    | none => body
    | some t => if t ≠ str name then [lit "Warning: collection not of type ", lit name, .endl] else body

/-- The same for the classes that are not compared with the type of the collection, such as Operators.cc:229-239. -/
def titledAny (title : String) (body : List Piece) : List Piece :=
  [.noshowpos, .setw 41, .setfill 45, .right, lit title, .setfill 45, .setw 29, lit "-", .endl] ++ body

/-- `lcshort` of a collection, Operators.cc:97-107. -/
def colLine (n : W32) (type : Str) (flag : W32) (transient default_ subset : Bool) : List Piece :=
  [.noshowpos, lit "|", .dec, .setw 20, .setfill 32, .int n, lit "|", .dec, .setw 11, .setfill 32, .text type, lit "|", .hex, .setw 13, .setfill 32, .int flag,
   lit "|", .dec, .setw 14, .setfill 32, boolPiece transient, lit "|", .dec, .setw 12, .setfill 32, boolPiece default_, lit "|", .dec, .setw 11, .setfill 32, boolPiece subset, lit "|", .endl]

/-- The details of a collection, Operators.cc:109-135. -/
def colText (col : Option Str) (n : W32) (type : Str) (flag : W32) (transient default_ subset : Bool) : List Piece :=
  titled " LCCollection " "LCCollection" col
    (row "Number of elements" ++ [.dec, .int n, .endl] ++ row' "Type name" ++ [.text type, .endl] ++ row' "Flag" ++ [.hex, .int flag, .endl] ++
     row' "Is transient" ++ [.dec, boolPiece transient, .endl] ++ row' "Is default" ++ [boolPiece default_, .endl] ++ row' "Is subset" ++ [boolPiece subset, .endl])

/-- `lcshort` of an event, Operators.cc:152-161. -/
def eventLine (run event : W32) (detector : Str) (time weight : W64) : List Piece :=
  [.noshowpos, lit "|", .dec, .setw 13, .setfill 32, .int run, lit "|", .dec, .setw 13, .setfill 32, .int event, lit "|", .dec, .setw 13, .setfill 32, .text detector,
   lit "|", .dec, .setw 13, .setfill 32, .long time, lit "|", .dec, .setw 13, .setfill 32, .double weight, lit "|", .endl]

/-- The lines of the collections in it, Operators.cc:191-195: name, type and number of elements. -/
def eventColLine (c : Str × Str × W32) : List Piece :=
  [lit "      ", lit "Name: ", .setw 20, .left, .text c.1, lit " Type: ", .left, .setw 10, .text c.2.1, lit " Number of Elements: ", .left, .setw 20, .int c.2.2, .endl]

/-- The details of an event, Operators.cc:164-197. -/
def eventText (col : Option Str) (run event : W32) (detector : Str) (time weight : W64) (cols : List (Str × Str × W32)) : List Piece :=
  titled " LCEvent " "LCEvent" col
    (row "Run number" ++ [.dec, .int run, .endl] ++ row' "Event number" ++ [.dec, .int event, .endl] ++ row' "Detector name" ++ [.text detector, .endl] ++
     row' "Time stamp" ++ [.long time, .endl] ++ row' "Weight" ++ [.double weight, .endl] ++ [.setw 30, .setfill 32, .left, lit "Collection Names", .endl] ++ cols.flatMap eventColLine)

/-- `lcshort` of a flag word, Operators.cc:215-220. -/
def flagLine (flag : W32) : List Piece := [.noshowpos, lit "|", .hex, .setw 8, .setfill 32, .int flag, lit "|", .endl]

/-- The details of a flag word, Operators.cc:222-243. -/
def flagText (flag : W32) : List Piece :=
  titledAny " LCFlag " ([.setw 30, .setfill 32, .left, lit "Flag", .right, .hex, .setw 40, .int flag, .dec, .endl])

/-- `lcshort` of a user object, Operators.cc:273-288. -/
def genericLine (id : W32) (ints : List W32) (floats : List W32) (doubles : List W64) : List Piece :=
  [.noshowpos, lit " [", .dec, .setw 8, .setfill 48, .int id, lit "] ", .setfill 32, .dec] ++ ints.flatMap (fun i => [lit "i:", .int i, lit "; "]) ++
    floats.flatMap (fun x => [lit "f:", .float x, lit "; "]) ++ doubles.flatMap (fun x => [lit "d:", .double x, lit "; "])

/-- The details of a user object, Operators.cc:291-318. What is printed as the number of `float` values is that of the `double` values. `id`: its decimal digits, which are made with a
stream of their own. -/
def genericText (col : Option Str) (id nInt _nFloat nDouble : W32) (type description : Str) : List Piece :=
  titled " LCGenericObject " "LCGenericObject" col
    (row "Id" ++ [.text (decInt id.toInt), .endl] ++ row' "Number of integer values" ++ [.int nInt, .endl] ++ row' "Number of float values" ++ [.int nDouble, .endl] ++
     row' "Type name" ++ [.text type, .endl] ++ row' "Description" ++ [.text description, .endl])

/-- The values of a vector, from the one numbered `j` on, Operators.cc:337-345, 395-403: ten in a line. -/
def vecPieces {α : Type} (piece : α → Piece) : Nat → List α → List Piece
  | _, [] => []
  | j, v :: vs => [.setfill 32, .right, .setw 8, piece v] ++ (if vs = [] then [] else [lit ", "]) ++ (if (j + 1) % 10 = 0 then [.endl, lit "     "] else []) ++ vecPieces piece (j + 1) vs

/-- `lcshort` of an `LCIntVec`, Operators.cc:333-349. -/
def intVecLine (id : W32) (vs : List W32) : List Piece :=
  [.noshowpos, lit "| [", .setfill 48, .setw 8, .dec, .int id, lit "] |"] ++ vecPieces .int 0 vs ++ [.endl]

/-- The details of an `LCIntVec`, Operators.cc:351-373: its number. -/
def intVecText (col : Option Str) (id : W32) : List Piece := titled " LCIntVec " "LCIntVec" col (row "Id" ++ [.text (decInt id.toInt), .endl])

/-- `lcshort` of an `LCFloatVec`, Operators.cc:391-407. -/
def floatVecLine (id : W32) (vs : List W32) : List Piece :=
  [.noshowpos, lit " [", .setfill 48, .setw 8, .dec, .int id, lit "] |"] ++ vecPieces .float 0 vs ++ [.endl]

/-- The details of an `LCFloatVec`, Operators.cc:409-428. -/
def floatVecText (col : Option Str) (id : W32) : List Piece :=
  titled " LCFloatVec " "LCFloatVec" col [.setw 30, .setfill 32, .left, lit "Id", .right, .text (decInt id.toInt), .endl]

/-- `lcshort` of an `LCObject`, Operators.cc:501-506. -/
def objectLine (id : W32) : List Piece := [.noshowpos, lit " [", .dec, .setw 8, .setfill 48, .int id, lit "] "]

/-- The details of an `LCObject`, Operators.cc:508-531. -/
def objectText (id : W32) : List Piece := titledAny " LCObject " (row "Id" ++ [.text (decInt id.toInt), .endl])

/-- `lcshort` of parameters, Operators.cc:547-551. -/
def paramsLine : List Piece := [.noshowpos, lit "| ", .hex, .setw 8, .setfill 32, lit " |"]

/-- The details of parameters, Operators.cc:553-628: none. -/
def paramsText : List Piece := titledAny " LCParameters " []

/-- `( v->getFrom() ? v->getFrom()->id() : 0 )`. -/
def idOr0 (o : Option W32) : Piece := .int (o.getD 0)

/-- `lcshort` of a relation, Operators.cc:647-656. -/
def relationLine (from_ to : Option W32) (weight : W32) : List Piece :=
  [.noshowpos, .setfill 48, lit "| [", .setw 8, .dec, idOr0 from_, lit "] |", lit " [", .setw 8, .dec, idOr0 to, lit "] |", lit " ", .setw 8, .dec, .float weight, lit "|", .setfill 32, .endl]

/-- The details of a relation, Operators.cc:658-677. -/
def relationText (col : Option Str) (from_ to : Option W32) (weight : W32) : List Piece :=
  titled " LCRelation " "LCRelation" col
    [.setw 30, .setfill 32, .left, lit "From [id]", .right, .dec, idOr0 from_, .endl, .setw 30, .setfill 32, .left, lit "To [id]", .right, idOr0 to, .endl,
     .setw 30, .setfill 32, .left, lit "Weight", .right, .float weight, .endl]

/-- `lcshort` of a run header, Operators.cc:694-702. -/
def runLine (run : W32) (detector description : Str) : List Piece :=
  [.noshowpos, lit " [", .dec, .setw 8, .setfill 48, .int run, lit "] ", lit "|", .dec, .setw 8, .setfill 32, .text detector, lit "|", .dec, .setw 8, .setfill 32, .text description,
   lit "|", .dec, .setw 8, .setfill 32] ++ paramsText ++ [lit "|", .endl]

/-- The details of a run header, Operators.cc:704-728. -/
def runText (col : Option Str) (run : W32) (detector description : Str) : List Piece :=
  titled " LCRunHeader " "LCRunHeader" col
    (row' "Run number" ++ [.dec, .int run, .dec, .endl] ++ row' "Detector name" ++ [.dec, .text detector, .dec, .endl] ++ row' "Description" ++ [.dec, .text description, .dec, .endl] ++
     row' "Parameters" ++ [.dec] ++ paramsText ++ [.dec, .endl])

/-- `lcshort` of a particle id, Operators.cc:788-796. -/
def pidLine (type pdg likelihood algorithm : W32) : List Piece :=
  [.noshowpos, lit "|", .dec, .setw 10, .setfill 32, .int type, lit "|", .dec, .setw 10, .setfill 32, .int pdg, lit "|", .dec, .setw 12, .setfill 32, .float likelihood,
   lit "|", .dec, .setw 14, .setfill 32, .int algorithm]

/-- The details of a particle id, Operators.cc:798-822. -/
def pidText (col : Option Str) (type pdg likelihood algorithm : W32) : List Piece :=
  titled " ParticleID " "ParticleID" col
    (row' "Type" ++ [.dec, .int type, .endl] ++ row' "PDG" ++ [.dec, .int pdg, .endl] ++ row' "Likelihood  " ++ [.dec, .float likelihood, .endl] ++
     row' "Algorithm type" ++ [.dec, .int algorithm, .endl])

/-- The fields of a cell id, such as Operators.cc:1840-1845. `none`: the collection does not describe them. -/
def fieldPieces (fields : Option Str) : List Piece :=
  match fields with
  | some t => [.endl, lit "        id-fields: (", .text t, lit ")", .endl]
  | none => [.endl, lit "        id-fields: --- unknown/default ----   "]

/-- `lcshort` of a calorimeter hit, Operators.cc:1822-1850. `pos`: if the flag says that there is a position. -/
def calHitLine (id cell0 cell1 energy error : W32) (pos : Option (W32 × W32 × W32)) (fields : Option Str) : List Piece :=
  [.noshowpos, lit " [", .dec, .setw 8, .setfill 48, .int id, lit "] ", lit "|", .dec, .setw 8, .setfill 48, .int cell0, lit "|", .dec, .setw 8, .setfill 48, .int cell1,
   lit "|", .dec, .setprecision 3, .scientific, .showpos, .float energy, lit "|", .dec, .setprecision 3, .scientific, .float error] ++
  (match pos with
   | some (x, y, z) => [lit "|", .dec, .setprecision 3, .scientific, .showpos, .float x, lit ", ", .float y, lit ", ", .float z]
   | none => [lit "    no position available         "]) ++
  fieldPieces fields ++ [.endl, .noshowpos]

/-- The numbers of relatives, Operators.cc:1947-1955, from the one numbered `k` on. -/
def idPieces : Nat → List W32 → List Piece
  | _, [] => []
  | k, i :: is => (if k > 0 then [lit ","] else []) ++ [.dec, .setfill 48, .setw 8, .int i] ++ idPieces (k + 1) is

/-- What is printed of an `MCParticle`. -/
structure ParticleShow where
  id : W32
  pdg : W32
  momentum : W64 × W64 × W64
  momentumAtEnd : W64 × W64 × W64
  energy : W64
  generator : W32
  status : Str
  vertex : W64 × W64 × W64
  endpoint : W64 × W64 × W64
  mass : W64
  charge : W32
  parents : List W32
  daughters : List W32

/-- `<< p[0] << ", " << p[1] << ", " << p[2] << "|"`. -/
def triple (v : W64 × W64 × W64) : List Piece := [.double v.1, lit ", ", .double v.2.1, lit ", ", .double v.2.2, lit "|"]

/-- `lcshort` of an `MCParticle`, Operators.cc:1924-1960. -/
def particleLine (p : ParticleShow) : List Piece :=
  [lit " [", .dec, .setfill 48, .setw 8, .int p.id, lit "] ", .dec, lit "|", .setfill 32, .setw 5, .int p.pdg, lit "|", .scientific, .showpos, .setprecision 2] ++ triple p.momentum ++
  [.scientific, .showpos, .setprecision 2] ++ triple p.momentumAtEnd ++ [.noshowpos, .double p.energy, lit "|", .fixed, .setw 3, .int p.generator, lit "|", .text p.status, lit "|",
   .scientific, .showpos, .setprecision 2] ++ triple p.vertex ++ [.scientific, .showpos, .setprecision 2] ++ triple p.endpoint ++
  [.double p.mass, lit "|", .float p.charge, lit "|", lit " ["] ++ idPieces 0 p.parents ++ [lit "] - ["] ++ idPieces 0 p.daughters ++ [lit "] ", .endl, .dec, .noshowpos, .setfill 32]

/-- What is printed of a `TrackState`. -/
structure StateShow where
  id : W32
  location : Str
  d0 : W32
  phi : W32
  omega : W32
  z0 : W32
  tanLambda : W32
  point : W32 × W32 × W32
  pointText : Str
  cov : List W32

/-- The triangle of the covariance matrix, Operators.cc:2335-2344, 2400-2412: `nele` and `ncolumns` count the elements of a row and the rows; `close` is printed behind a row. -/
def covPieces (close : List Piece) : Nat → Nat → List W32 → List Piece
  | _, _, [] => []
  | nele, ncol, c :: cs =>
    .float c :: (if nele % ncol = 0 then close ++ covPieces close 1 (ncol + 1) cs else lit ", " :: covPieces close (nele + 1) ncol cs)

/-- `lcshort` of a `TrackState`, Operators.cc:2319-2350. -/
def stateLine (s : StateShow) : List Piece :=
  [.noshowpos, lit " [", .setfill 48, .setw 8, .dec, .int s.id, lit "] ", .scientific, .setprecision 6, .showpos, .dec, .setfill 32, lit " |", .float s.d0, lit " |", .float s.phi,
   lit " |", .float s.omega, lit " |", .setprecision 3, .float s.z0, lit " |", .float s.tanLambda, lit " |(", .setprecision 2, .float s.point.1, lit ", ", .float s.point.2.1, lit ", ",
   .float s.point.2.2, .endl, lit " cov matrix: ", .showpos, .scientific, .setprecision 6, .setw 15, .setfill 32] ++ covPieces [lit " | "] 1 1 s.cov ++ [.endl, .endl]

/-- The details of a `TrackState`, Operators.cc:2352-2416, without a collection. The number and the reference point are printed with a stream of their own: `pointText`. -/
def stateText (s : StateShow) : List Piece :=
  titledAny "-- TrackState ---"
    (row "Location" ++ [.text s.location, .endl, .scientific, .setprecision 6] ++ row "Id" ++ [.text (padded 8 s.id.toInt), .endl] ++ row "D0" ++ [.float s.d0, .endl] ++
     row "Phi" ++ [.float s.phi, .endl] ++ row "Omega" ++ [.float s.omega, .endl] ++ row "Z0" ++ [.float s.z0, .endl] ++ row "Tan Lambda" ++ [.float s.tanLambda, .endl] ++
     row "ReferencePoint" ++ [.text s.pointText, .endl, lit "Cov matrix:", .showpos, .scientific, .setprecision 6, .setw 15, .setfill 32] ++
     covPieces [.endl, lit "             "] 1 1 s.cov ++ [.noshowpos])

/-- `lcshort` of a vertex, Operators.cc:2766-2783. -/
def vertexLine (id : W32) (primary : Bool) (algorithm : Str) (chi2 prob : W32) (pos : W32 × W32 × W32) (nParams : W64) (particle : Option W32) : List Piece :=
  [.noshowpos, .setfill 48, lit " [", .setw 8, .dec, .int id, lit "] | ", boolPiece primary, lit " | ", .setfill 32, .setw 17, .left, .text algorithm, lit " | ", .showpos,
   .setfill 48, .right, .scientific, .setprecision 2, .float chi2, lit " | ", .float prob, lit " | ", .float pos.1, lit ", ", .float pos.2.1, lit ", ", .float pos.2.2, lit " | [",
   .setw 3, .size nParams, lit "] | [", .setw 8, .dec, idOr0 particle, lit "]\n", .noshowpos]

/-- What stands in the row "Id" of the details of a simulated calorimeter hit, Operators.cc:1228, 1239-1252: `tmp` is not cleared after the flag of the collection was printed. -/
def simCalId (flag : Option W32) (id : W32) : Str :=
  (match flag with
   | some f => str "0x" ++ hexLoop (f.toNat + 1) f.toNat
   | none => []) ++ decInt id.toInt

/-- What stands in the row "Id" of the details of a reconstructed particle, Operators.cc:2217-2219. -/
def recoId (id : W32) : Str := str "0x" ++ decInt id.toInt

/-- The fields of a cell id in the tables of tracker data, such as Operators.cc:969-974. -/
def fieldsOr (before after : String) (fields : Option Str) : List Piece :=
  match fields with
  | some t => [lit before, .text t] ++ (if after = "" then [] else [lit after])
  | none => [lit (if before = "|" then "|    --- unknown/default ----   |" else "    --- unknown/default ----   ")]

/-- `<< dec << setw(8) << setfill('0') << n`. -/
def zeroed (n : W32) : List Piece := [.dec, .setw 8, .setfill 48, .int n]

/-- `lcshort` of a raw calorimeter hit, Operators.cc:838-859. -/
def rawCalLine (id cell0 cell1 amplitude time : W32) (fields : Option Str) : List Piece :=
  [.noshowpos, lit " [", .setw 8, .setfill 48, .dec, .int id, lit "| "] ++ zeroed cell0 ++ [lit "| "] ++ zeroed cell1 ++
  [lit "|", .dec, .setw 11, .setfill 32, .int amplitude, lit "|", .dec, .setw 11, .setfill 32, .int time, lit "|", .endl] ++ fieldPieces fields

/-- A bit of the flag of the collection, such as Operators.cc:876. -/
def bitPieces (name : String) (flag : W32) (bit : Nat) : List Piece := [lit name, boolPiece (flag.getLsbD bit), .endl]

/-- The details of a raw calorimeter hit, Operators.cc:861-887. The bits are those of the handlers (src/cpp/src/SIO/SIORawCalHitHandler.cc). `col`: type and flag of the collection. -/
def rawCalText (col : Option (Str × W32)) (cell0 cell1 amplitude time : W32) : List Piece :=
  titled " RawCalorimeterHit " "RawCalorimeterHit" (col.map (·.1))
    ((match col with
      | some c => bitPieces "     LCIO::RCHBIT_ID1    : " c.2 29 ++ bitPieces "     LCIO::RCHBIT_TIME   : " c.2 27 ++ bitPieces "     LCIO::RCHBIT_NO_PTR : " c.2 28
      | none => []) ++
     row' "CellID0" ++ [.dec, .int cell0, .endl] ++ row' "CellID1" ++ [.dec, .int cell1, .endl] ++ row' "Amplitude" ++ [.dec, .int amplitude, .endl] ++
     row' "TimeStamp" ++ [.dec, .int time, .endl])

/-- `out << charge[j] << ","`, Operators.cc:979-981, 1122-1124. -/
def commaPieces {α : Type} (sep : String) (piece : α → Piece) (vs : List α) : List Piece := vs.flatMap fun v => [piece v, lit sep]

/-- The first columns of the tables of tracker data, Operators.cc:963-966. -/
def dataFront (id cell0 cell1 : W32) : List Piece :=
  [.noshowpos, lit " ["] ++ zeroed id ++ [lit "] |", lit " "] ++ zeroed cell0 ++ [lit " |", lit " "] ++ zeroed cell1 ++ [lit " |"]

/-- `lcshort` of `TrackerData`, Operators.cc:959-985. -/
def dataLine (id cell0 cell1 time : W32) (fields : Option Str) (charges : List W32) : List Piece :=
  dataFront id cell0 cell1 ++ [lit " ", .dec, .setw 8, .setfill 32, .float time, lit " |"] ++ fieldsOr " " "" fields ++ [lit "chargeADC : "] ++ commaPieces "," Piece.float charges ++ [.endl]

/-- The details of `TrackerData`, Operators.cc:987-1010. -/
def dataText (col : Option Str) (cell0 cell1 time : W32) : List Piece :=
  titled " TrackerData " "TrackerData" col
    (row' "CellID0" ++ [.dec, .int cell0, .endl] ++ row' "CellID1" ++ [.dec, .int cell1, .endl] ++ row' "Time" ++ [.dec, .float time, .endl])

/-- The number of the `TrackerData` of a pulse, Operators.cc:1037-1042. -/
def corrPieces (corr : Option W32) : List Piece :=
  match corr with
  | some c => [lit "|", .dec, .setfill 48, .setw 10, .int c, lit "]"]
  | none => [lit "|[", .dec, .setfill 48, .setw 10, lit "0", lit "]"]

/-- `lcshort` of a `TrackerPulse`, Operators.cc:1026-1059. `corr`: the number of the `TrackerData`, if there is one. -/
def pulseLine (id cell0 cell1 time charge quality : W32) (corr : Option W32) (fields : Option Str) (covs : List W32) : List Piece :=
  dataFront id cell0 cell1 ++ [.dec, .setw 6, .setfill 32, .float time, lit "|", .dec, .setw 8, .setfill 32, .float charge, lit "|", .dec, .setw 10, .setfill 32, .int quality, .endl] ++
  corrPieces corr ++
  fieldsOr "|" "|" fields ++ commaPieces ", " Piece.float covs ++ [.endl]

/-- The details of a `TrackerPulse`, Operators.cc:1061-1087. -/
def pulseText (col : Option (Str × W32)) (cell0 cell1 time charge quality : W32) : List Piece :=
  titled " TrackerPulse " "TrackerPulse" (col.map (·.1))
    ((match col with
      | some c => bitPieces "     LCIO::TRAWBIT_ID1    : " c.2 31
      | none => []) ++
     row' "CellID0" ++ [.dec, .int cell0, .endl] ++ row' "CellID1" ++ [.dec, .int cell1, .endl] ++ row' "Time" ++ [.dec, .float time, .endl] ++
     row' "Charge" ++ [.dec, .float charge, .endl] ++ row' "Quality" ++ [.dec, .int quality, .endl])

/-- `lcshort` of `TrackerRawData`, Operators.cc:1103-1128. The ADC values are `short`s; after `dec`, they are printed like the `int`s of the same value. -/
def rawDataLine (id cell0 cell1 time : W32) (fields : Option Str) (adc : List W32) : List Piece :=
  dataFront id cell0 cell1 ++ [lit " ", .dec, .setw 8, .setfill 32, .int time, lit " |"] ++ fieldsOr " " "" fields ++ [lit " adc values: "] ++ commaPieces "," Piece.int adc ++ [.endl]

/-- The details of `TrackerRawData`, Operators.cc:1130-1153. -/
def rawDataText (col : Option Str) (cell0 cell1 time : W32) : List Piece :=
  titled " TrackerRawData " "TrackerRawData" col
    (row' "CellID0" ++ [.dec, .int cell0, .endl] ++ row' "CellID1" ++ [.dec, .int cell1, .endl] ++ row' "Time" ++ [.dec, .int time, .endl])

/-- Something that is printed: a line or the details of an object. -/
inductive Print
  | colLine (n : W32) (type : Str) (flag : W32) (transient default_ subset : Bool)
  | colText (col : Option Str) (n : W32) (type : Str) (flag : W32) (transient default_ subset : Bool)
  | eventLine (run event : W32) (detector : Str) (time weight : W64)
  | eventText (col : Option Str) (run event : W32) (detector : Str) (time weight : W64) (cols : List (Str × Str × W32))
  | flagLine (flag : W32)
  | flagText (flag : W32)
  | genericLine (id : W32) (ints : List W32) (floats : List W32) (doubles : List W64)
  | genericText (col : Option Str) (id nInt nFloat nDouble : W32) (type description : Str)
  | intVecLine (id : W32) (vs : List W32)
  | intVecText (col : Option Str) (id : W32)
  | floatVecLine (id : W32) (vs : List W32)
  | floatVecText (col : Option Str) (id : W32)
  | objectLine (id : W32)
  | objectText (id : W32)
  | paramsLine
  | paramsText
  | relationLine (from_ to : Option W32) (weight : W32)
  | relationText (col : Option Str) (from_ to : Option W32) (weight : W32)
  | runLine (run : W32) (detector description : Str)
  | runText (col : Option Str) (run : W32) (detector description : Str)
  | pidLine (type pdg likelihood algorithm : W32)
  | pidText (col : Option Str) (type pdg likelihood algorithm : W32)
  | calHitLine (id cell0 cell1 energy error : W32) (pos : Option (W32 × W32 × W32)) (fields : Option Str)
  | particleLine (p : ParticleShow)
  | stateLine (s : StateShow)
  | stateText (s : StateShow)
  | vertexLine (id : W32) (primary : Bool) (algorithm : Str) (chi2 prob : W32) (pos : W32 × W32 × W32) (nParams : W64) (particle : Option W32)
  | rawCalLine (id cell0 cell1 amplitude time : W32) (fields : Option Str)
  | rawCalText (col : Option (Str × W32)) (cell0 cell1 amplitude time : W32)
  | dataLine (id cell0 cell1 time : W32) (fields : Option Str) (charges : List W32)
  | dataText (col : Option Str) (cell0 cell1 time : W32)
  | pulseLine (id cell0 cell1 time charge quality : W32) (corr : Option W32) (fields : Option Str) (covs : List W32)
  | pulseText (col : Option (Str × W32)) (cell0 cell1 time charge quality : W32)
  | rawDataLine (id cell0 cell1 time : W32) (fields : Option Str) (adc : List W32)
  | rawDataText (col : Option Str) (cell0 cell1 time : W32)

/-- What the operator gives to the stream. -/
def Print.pieces : Print → List Piece
  | .colLine n t f a b c => Util.colLine n t f a b c
  | .colText col n t f a b c => Util.colText col n t f a b c
  | .eventLine r e d t w => Util.eventLine r e d t w
  | .eventText col r e d t w cols => Util.eventText col r e d t w cols
  | .flagLine f => Util.flagLine f
  | .flagText f => Util.flagText f
  | .genericLine i a b c => Util.genericLine i a b c
  | .genericText col i a b c t d => Util.genericText col i a b c t d
  | .intVecLine i vs => Util.intVecLine i vs
  | .intVecText col i => Util.intVecText col i
  | .floatVecLine i vs => Util.floatVecLine i vs
  | .floatVecText col i => Util.floatVecText col i
  | .objectLine i => Util.objectLine i
  | .objectText i => Util.objectText i
  | .paramsLine => Util.paramsLine
  | .paramsText => Util.paramsText
  | .relationLine a b w => Util.relationLine a b w
  | .relationText col a b w => Util.relationText col a b w
  | .runLine r d t => Util.runLine r d t
  | .runText col r d t => Util.runText col r d t
  | .pidLine a b c d => Util.pidLine a b c d
  | .pidText col a b c d => Util.pidText col a b c d
  | .calHitLine i a b e f p t => Util.calHitLine i a b e f p t
  | .particleLine p => Util.particleLine p
  | .stateLine s => Util.stateLine s
  | .stateText s => Util.stateText s
  | .vertexLine i p a c q x n o => Util.vertexLine i p a c q x n o
  | .rawCalLine i a b c t f => Util.rawCalLine i a b c t f
  | .rawCalText col a b c t => Util.rawCalText col a b c t
  | .dataLine i a b t f v => Util.dataLine i a b t f v
  | .dataText col a b t => Util.dataText col a b t
  | .pulseLine i a b t c q d f v => Util.pulseLine i a b t c q d f v
  | .pulseText col a b t c q => Util.pulseText col a b t c q
  | .rawDataLine i a b t f v => Util.rawDataLine i a b t f v
  | .rawDataText col a b t => Util.rawDataText col a b t

/-- The text of a program that prints these to one stream, one after the other: one text for each. -/
def session (num : FloatText) : Format → List Print → List Str
  | _, [] => []
  | f, p :: ps => f.printAll num p.pieces :: session num (f.after p.pieces) ps

/-- `toString( obj )`, src/cpp/include/UTIL/Operators.h:289-294: printed to a stream of its own. -/
def Print.toString (num : FloatText) (p : Print) : Str := Format.fresh.printAll num p.pieces

end Util
