import Verif.Util.ParallelRead
import Verif.Util.BitField
import Verif.Lcio.Setters
/-
Printing: src/cpp/src/UTIL/LCTOOLS.cc. What is written to `cout` and with `printf` is one text, in the order of the calls (`sync_with_stdio`).
-/
namespace Util
open Sio Lcio

/-- How floating point numbers are printed, which is not modelled: `printf("% 1.2e")` of a `double` and of a `float`, `cout <<` of both, and `MCParticleImpl::getEnergy` (src/cpp/src/IMPL/MCParticleImpl.cc:159-161). -/
structure NumText where
  exp64 : W64 → Str
  exp32 : W32 → Str
  out64 : W64 → Str
  out32 : W32 → Str
  energy : List W64 → W64 → W64

/-! ## Status bits -/

/-- One character: `if( b ) s[i]=c ; else s[i]=' ' ;`. -/
def letter (b : Bool) (c : Byte) : Byte := if b then c else 32

/-- `LCTOOLS::getSimulatorStatusString`, LCTOOLS.cc:1378-1439, of a particle. The bits are those of src/aid/EVENT/MCParticle.aid:86-94 (src/cpp/src/IMPL/MCParticleImpl.cc:182-189). -/
def simStatusText (s : W32) : Str :=
  if s = 0 then str "[    0   ]"
  else str "[" ++ [letter (s.getLsbD 30) 115, letter (s.getLsbD 29) 98, letter (s.getLsbD 28) 118, letter (s.getLsbD 27) 116, letter (s.getLsbD 26) 99, letter (s.getLsbD 25) 108,
    letter (s.getLsbD 24) 115, letter (s.getLsbD 23) 111] ++ str "]"

/-- `LCTOOLS::getQualityBits`, LCTOOLS.cc:1442-1473, of a hit. The bits are those of src/aid/EVENT/SimTrackerHit.aid:75-76 (src/cpp/src/IMPL/SimTrackerHitImpl.cc:135-136). -/
def qualityText (q : W32) : Str :=
  if q = 0 then str "[   0   ]"
  else str "[" ++ [letter (q.getLsbD 31) 111, letter (q.getLsbD 30) 115, 32, 32, 32, 32, 32] ++ str "]"

/-! ## Parameters -/

/-- One parameter, LCTOOLS.cc:1321-1334: the key, the type, and each value with a comma behind it; two line ends if there are no values. -/
def paramText (kind : Str) {α : Type} (show_ : α → Str) (e : Str × List α) : Str :=
  str " parameter " ++ e.1 ++ str " [" ++ kind ++ str "]: " ++ (if e.2.length = 0 then str " [empty] " ++ eol else []) ++ (e.2.map fun v => show_ v ++ str ", ").flatten ++ eol

/-- `LCTOOLS::printParameters`, LCTOOLS.cc:1317-1366. The keys come in the order of the maps, and the values are those of the key (src/cpp/src/IMPL/LCParametersImpl.cc:50-113). -/
def printParameters (num : NumText) (p : Params) : Str :=
  (p.ints.map (paramText (str "int") fun v : W32 => decInt v.toInt)).flatten ++ (p.floats.map (paramText (str "float") num.out32)).flatten ++
  (p.strs.map (paramText (str "string") id)).flatten

/-! ## Particles -/

/-- `printf("%8.8d")`: at least eight digits. -/
def digits8 (n : Int) : Str := (if n < 0 then str "-" else []) ++ List.replicate (8 - (dec n.natAbs).length) 48 ++ dec n.natAbs

/-- `printf("% 1.2e,% 1.2e,% 1.2e|")` of an array of three. -/
def three {α : Type} (f : α → Str) (v : List α) : Str := commas (v.map f) ++ str "|"

/-- `p2i_map`, LCTOOLS.cc:1153-1154: positions by address. `p2i_map[ part ] = k`. -/
def putIndex (m : List (Nat × Nat)) (a k : Nat) : List (Nat × Nat) := (a, k) :: m.filter fun x => x.1 ≠ a

/-- The loop that fills it, LCTOOLS.cc:1171-1176, from the position `k` on. -/
def fillIndex : List (Nat × Nat) → Nat → List Nat → List (Nat × Nat)
  | m, _, [] => m
  | m, k, a :: as => fillIndex (putIndex m a k) (k + 1) as

/-- `p2i_map[ a ]`: 0 for a pointer that is not in the map. That it is added to the map then changes nothing. -/
def indexIn (m : List (Nat × Nat)) (a : Nat) : Nat := (m.lookup a).getD 0

/-- The line of a particle, LCTOOLS.cc:1188-1227, up to its colour flow. `h` are the particles, and `ids` their `id()`, by address. -/
def mcFront (num : NumText) (h : Nat → MCParticle) (id : Int) (index : Nat) (o : MCParticle) : Str :=
  str "[" ++ digits8 id ++ str "]" ++ padRight 5 (dec index) ++ str "|" ++ padRight 10 (decInt o.pdg.toInt) ++ str "|" ++ three num.exp64 o.p ++ three num.exp64 o.pEndpoint ++
  num.exp64 (num.energy o.p o.mass) ++ str "|" ++ str " " ++ decInt o.genStatus.toInt ++ str " |" ++ simStatusText o.simStatus ++ str "|" ++ three num.exp64 o.vertex ++
  three num.exp64 (o.getEndpoint h) ++ num.exp64 o.mass ++ str "|" ++ num.exp32 o.charge ++ str "|" ++ three num.exp32 o.spin ++
  str "  (" ++ (match o.colorFlow with
    | [a, b] => decInt a.toInt ++ str ", " ++ decInt b.toInt
    | _ => []) ++ str ")   |"

/-- The end of the line, LCTOOLS.cc:1229-1240: positions of parents and daughters. -/
def mcFamily (parents daughters : List Nat) : Str :=
  str " [" ++ commas (parents.map dec) ++ str "] - [" ++ commas (daughters.map dec) ++ str "] " ++ eol

/-- One line of the loop, LCTOOLS.cc:1184-1241. The address 0 is that of the null pointer. -/
def mcLine (num : NumText) (h : Nat → MCParticle) (ids : Nat → Int) (m : List (Nat × Nat)) (index a : Nat) : Except Err Str :=
  if a = 0 then .error .ub
  else .ok (mcFront num h (ids a) index (h a) ++ mcFamily ((h a).parents.map (indexIn m)) ((h a).daughters.map (indexIn m)))

/-- The loop over the collection. -/
def mcLines (num : NumText) (h : Nat → MCParticle) (ids : Nat → Int) (m : List (Nat × Nat)) : Nat → List Nat → Except Err (List Str)
  | _, [] => .ok []
  | k, a :: as => match mcLine num h ids m k a with
    | .error e => .error e
    | .ok l => match mcLines num h ids m (k + 1) as with
      | .error e => .error e
      | .ok ls => .ok (l :: ls)

/-- The lines above, LCTOOLS.cc:1141-1149 and 1178-1181, without the texts that do not depend on the collection. -/
def mcHead (flagText : Str) (num : NumText) (params : Params) : Str := str "  flag:  0x" ++ flagText ++ eol ++ printParameters num params

/-- `LCTOOLS::printMCParticles`, LCTOOLS.cc:1133-1246, of a collection with the given type and elements: the head and the lines. An element that is not an MCParticle counts as a null pointer (`dynamic_cast`). `none`: another type, for which only a message is printed. -/
def printMCParticles (num : NumText) (flagText : Str) (h : Nat → MCParticle) (ids : Nat → Int) (type : Str) (params : Params) (elems : List Nat) : Except Err (Option (Str × List Str)) :=
  if type ≠ str "MCParticle" then .ok none
  else match mcLines num h ids (fillIndex [] 0 elems) 0 elems with
    | .error e => .error e
    | .ok ls => .ok (some (mcHead flagText num params, ls))

/-! ## Daughters -/

/-- A line of `LCTOOLS::printDaughterParticles`, LCTOOLS.cc:1288-1309: the number of the line, the number of the mother, the daughter, and the particle whose status and endpoint are printed. -/
structure DaughterLine where
  index : Int
  mother : Int
  pdgOf : Nat
  statusOf : Nat
  deriving DecidableEq, Repr

/-- Three numbers with commas and spaces between. -/
def spaced : List Str → Str
  | [] => []
  | [x] => x
  | x :: xs => x ++ str ", " ++ spaced xs

/-- Its text. -/
def DaughterLine.text (num : NumText) (h : Nat → MCParticle) (l : DaughterLine) : Str :=
  let d := h l.pdgOf
  let part := h l.statusOf
  decInt l.index ++ str " [" ++ decInt l.mother ++ str "] " ++ decInt d.pdg.toInt ++ str " | (" ++ spaced (d.p.map num.out64) ++ str ") | " ++
  decInt part.genStatus.toInt ++ str " | " ++ decInt part.simStatus.toInt ++ str " | (" ++ spaced (d.vertex.map num.out64) ++ str ") | (" ++ spaced ((part.getEndpoint h).map num.out64) ++ str ") | " ++
  num.out64 d.mass ++ str " | " ++ num.out32 d.charge ++ str " | " ++ num.out64 (num.energy d.p d.mass) ++ eol

/-- The loop over the daughters, LCTOOLS.cc:1285-1312, with the function for the calls inside: the lines, and the next number. -/
def daughterLoop (call : Nat → Int → Except Err (List DaughterLine × Int)) (part : Nat) (mother : Int) : List Nat → Int → Except Err (List DaughterLine × Int)
  | [], index => .ok ([], index)
  | d :: ds, index => match call d (index + 1) with
    | .error e => .error e
    | .ok (ls, index') => match daughterLoop call part mother ds index' with
      | .error e => .error e
      | .ok (ls', index'') => .ok (⟨index, mother, d, part⟩ :: ls ++ ls', index'')

/-- `LCTOOLS::printDaughterParticles`, LCTOOLS.cc:1281-1315. The first argument bounds the depth. `int` does not overflow. -/
def printDaughters (daughters : Nat → List Nat) : Nat → Nat → Int → Except Err (List DaughterLine × Int)
  | 0, _, _ => .error .diverge
  | fuel+1, part, index => daughterLoop (printDaughters daughters fuel) part (index - 1) (daughters part) index

end Util
