import Verif.Sio.Basic
/-
Flags for the physics process of an event.
-/
namespace Util
open Sio

/-- `ProcessorFlagBits`, src/cpp/include/UTIL/ProcessFlag.h:15-41. -/
inductive PF where
  | electrons | muons | taus | neutrinos | photons | dquarks | uquarks | squarks | cquarks | bquarks
  | higgsbb | higgscc | higgsdu | higgsss | higgsgg | higgstautau | higgsmumu | higgsWW | higgsZZ | higgsgaga | higgsgaZ | higgsinv | higgsother
  | exotic | unknown
  deriving DecidableEq, Repr

/-- The values of the enumerators, which count from 0, ProcessFlag.h:15-41. -/
def PF.bit : PF → Nat
  | .electrons => 0 | .muons => 1 | .taus => 2 | .neutrinos => 3 | .photons => 4
  | .dquarks => 5 | .uquarks => 6 | .squarks => 7 | .cquarks => 8 | .bquarks => 9
  | .higgsbb => 10 | .higgscc => 11 | .higgsdu => 12 | .higgsss => 13 | .higgsgg => 14
  | .higgstautau => 15 | .higgsmumu => 16 | .higgsWW => 17 | .higgsZZ => 18 | .higgsgaga => 19
  | .higgsgaZ => 20 | .higgsinv => 21 | .higgsother => 22 | .exotic => 23 | .unknown => 24

/-- `ProcessFlag::add( bit )`, ProcessFlag.h:80-82. -/
def pfAdd (flag : BitVec 32) (b : PF) : BitVec 32 := flag ||| ((1 : BitVec 32) <<< b.bit)

/-- The constructor from a list of bits, ProcessFlag.h:75-77. -/
def pfOf (bits : List PF) : BitVec 32 := bits.foldl pfAdd 0

/-- `ProcessFlag::has( bit )`, ProcessFlag.h:117. -/
def pfHas (flag : BitVec 32) (b : PF) : Bool := (flag &&& ((1 : BitVec 32) <<< b.bit)) != 0

/-- `ProcessFlag::contains( f )`, ProcessFlag.h:110. -/
def pfContains (flag f : BitVec 32) : Bool := (flag &&& f) == f

/-- `_mapFS`, ProcessFlag.h:122-136. The order of the keys does not matter for `find`. -/
def pfMapFS : List (Int × PF) :=
  [(11, .electrons), (13, .muons), (15, .taus), (12, .neutrinos), (14, .neutrinos), (16, .neutrinos), (22, .photons),
   (1, .dquarks), (2, .uquarks), (3, .squarks), (4, .cquarks), (5, .bquarks)]

/-- `_mapH`, ProcessFlag.h:137-153. -/
def pfMapH : List (Int × PF) :=
  [(5, .higgsbb), (1, .higgsdu), (2, .higgsdu), (3, .higgsss), (4, .higgscc), (15, .higgstautau), (13, .higgsmumu), (24, .higgsWW), (23, .higgsZZ),
   (22, .higgsgaga), (12, .higgsinv), (14, .higgsinv), (16, .higgsinv), (1000022, .higgsinv)]

/-- `ProcessFlag::addFSParticles( pdg )`, ProcessFlag.h:85-92. -/
def pfAddFS (flag : BitVec 32) (pdg : Int) : BitVec 32 × Bool :=
  match pfMapFS.lookup pdg with
  | some b => (pfAdd flag b, true)
  | none => (flag, false)

/-- `ProcessFlag::addHiggsDecay( pdg )`, ProcessFlag.h:94-101. -/
def pfAddHiggs (flag : BitVec 32) (pdg : Int) : BitVec 32 × Bool :=
  match pfMapH.lookup pdg with
  | some b => (pfAdd flag b, true)
  | none => (flag, false)

/-- What `decodeMCTruthProcess` uses of an `MCParticle`: `getPDG()`, `getGeneratorStatus()`, `getParents()` and `getDaughters()`. -/
structure McNode where
  pdg : Int
  status : Int := 0
  parents : List Nat := []
  daughters : List Nat := []

/-- The particles by their addresses. Simplification: pointers between particles always point to particles. -/
abbrev Mcs := Nat → McNode

/-- `std::abs( int )`: undefined for the smallest number. -/
def absInt (x : Int) : Except Err Int := if x ≤ -2147483648 then .error .ub else .ok x.natAbs

/-- The first loop of `decodeMCTruthProcess`, src/cpp/src/UTIL/ProcessFlag.cc:37-49: the daughters of the first particle with status 3, or the number of
particles without parents. -/
def pfScan (h : Mcs) : List Nat → Nat → List Nat ⊕ Nat
  | [], n => .inr n
  | p :: ps, n => if (h p).status = 3 then .inl (h p).daughters else pfScan h ps (if (h p).parents.isEmpty then n + 1 else n)

/-- The loop over the daughters of the first particle, ProcessFlag.cc:71-80. -/
def pfBeam (h : Mcs) : List Nat → Option (List Nat)
  | [] => none
  | d :: ds => if (h d).daughters.length > 1 then some (h d).daughters else pfBeam h ds

/-- `icase` and `hf_vec`, ProcessFlag.cc:31-86. -/
def pfHard (h : Mcs) (col : List Nat) (maxParticles : Int) : Except Err (Nat × List Nat) :=
  match pfScan h (col.take maxParticles.toNat) 0 with
  | .inl ds => .ok (1, ds)
  | .inr n =>
    if n > 2 then .ok (2, col.take n)
    else if n = 2 then
      match col with
      | [] => .error .ub
      | p :: _ =>
        match pfBeam h (h p).daughters with
        | some ds => .ok (3, ds)
        | none => .ok (0, [])
    else .ok (0, [])

/-- The loop to the Higgs boson that decays, ProcessFlag.cc:107-111. The first argument bounds the number of steps; if that is not enough the result is
`diverge`. -/
def pfFollow (h : Mcs) : Nat → Nat → Except Err Nat
  | 0, _ => .error .diverge
  | n + 1, p =>
    match (h p).daughters with
    | [d] => do
      let a ← absInt (h d).pdg
      if a = 25 then pfFollow h n d else return p
    | _ => return p

/-- `++` for an element of a `std::map`, ProcessFlag.cc:102, and `-= 2`, ProcessFlag.cc:122. Simplification: the numbers do not overflow. -/
def pfCountAdd (k : Int) (by_ : Int) : List (Int × Int) → List (Int × Int)
  | [] => [(k, by_)]
  | (k', c) :: m => if k < k' then (k, by_) :: (k', c) :: m else if k = k' then (k, c + by_) :: m else (k', c) :: pfCountAdd k by_ m

/-- The variables of the second loop, ProcessFlag.cc:28-33. -/
structure PfState where
  counts : List (Int × Int) := []
  higgs : Bool := false
  hDpdg0 : Int := 0
  hDpdg1 : Int := 0

/-- One turn of the second loop, ProcessFlag.cc:97-119. -/
def pfStep (h : Mcs) (fuel : Nat) (s : PfState) (p : Nat) : Except Err PfState := do
  let pdg ← absInt (h p).pdg
  let s := { s with counts := pfCountAdd pdg 1 s.counts }
  if pdg = 25 then do
    let q ← pfFollow h fuel p
    match (h q).daughters with
    | [] => .error .ub
    | [d] => return { s with higgs := true, hDpdg0 := (h d).pdg }
    | d :: e :: _ => return { s with higgs := true, hDpdg0 := (h d).pdg, hDpdg1 := (h e).pdg }
  else return s

/-- The third loop, ProcessFlag.cc:130-137. -/
def pfFinal (flag : BitVec 32) : List (Int × Int) → BitVec 32
  | [] => flag
  | (k, c) :: m =>
    let flag := if c > 0 then (pfAddFS flag k).1 else flag
    let flag := if c > 1000000 then pfAdd flag .exotic else flag
    pfFinal flag m

/-- The decay of the Higgs boson, ProcessFlag.cc:141-155. -/
def pfDecay (flag : BitVec 32) (s : PfState) : Except Err (BitVec 32) :=
  if s.higgs then do
    let a ← absInt s.hDpdg0
    let b ← absInt s.hDpdg1
    let flag := if a = b then (pfAddHiggs flag a).1 else flag
    let flag := if s.hDpdg0 = 22 ∧ s.hDpdg1 = 23 then pfAdd flag .higgsgaZ else flag
    let flag := if s.hDpdg0 = 23 ∧ s.hDpdg1 = 22 then pfAdd flag .higgsgaZ else flag
    let flag := if a > 1000000 ∨ b > 1000000 then pfAdd flag .exotic else flag
    return flag
  else .ok flag

/-- `decodeMCTruthProcess( col, maxParticles )`, ProcessFlag.cc:11-158. -/
def decodeProcess (h : Mcs) (fuel : Nat) (col : List Nat) (maxParticles : Int := 10) : Except Err (BitVec 32) := do
  let (icase, hf) ← pfHard h col maxParticles
  if icase = 0 ∨ hf.isEmpty then return pfAdd 0 .unknown
  else do
    let s ← hf.foldlM (pfStep h fuel) {}
    let s := if icase = 2 then { s with counts := pfCountAdd 22 (-2) s.counts } else s
    pfDecay (pfFinal 0 s.counts) s

end Util
