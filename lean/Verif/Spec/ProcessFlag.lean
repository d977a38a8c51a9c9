import Verif.Util.ProcessFlag
/-
What the flags of a physics process mean, after the comments in src/cpp/include/UTIL/ProcessFlag.h.
-/
namespace Spec
open Util

/-- Particles without parents. -/
def Parentless (h : Mcs) (p : Nat) : Prop := (h p).parents = []

instance (h : Mcs) (p : Nat) : Decidable (Parentless h p) := by unfold Parentless; infer_instance

/-- The three kinds of files. -/
inductive McCase where
  | incoming | noBeams | beams
  deriving DecidableEq

/-- The particles of the hard final state, where `first` are the particles that are looked at:
the daughters of the first particle with status 3;
otherwise, if there are more than two particles without parents, these;
otherwise, if there are two, the daughters of those of their daughters that have more than one daughter. -/
def hardState (h : Mcs) (first : List Nat) : Option (McCase × List Nat) :=
  match first.find? (fun p => (h p).status = 3) with
  | some p => some (.incoming, (h p).daughters)
  | none =>
    let top := first.filter (Parentless h ·)
    if top.length > 2 then some (.noBeams, top)
    else if top.length = 2 then some (.beams, ((top.flatMap fun p => (h p).daughters).filter fun d => (h d).daughters.length > 1).eraseDups.flatMap fun d => (h d).daughters)
    else none

/-- Files as the event generators write them: the particles without parents come first, and if these are the two beams, only one particle with more than one
daughter comes from them, at least from the first of them. -/
structure Tidy (h : Mcs) (first : List Nat) : Prop where
  parentless : (∀ p ∈ first, (h p).status ≠ 3) → ∃ rest, first = first.filter (Parentless h ·) ++ rest
  one : (∀ p ∈ first, (h p).status ≠ 3) → (first.filter (Parentless h ·)).length = 2 → ∀ d, (h d).daughters.length > 1 → (∃ p ∈ first, Parentless h p ∧ d ∈ (h p).daughters) →
    (∀ p ∈ first.head?, d ∈ (h p).daughters) ∧
    ∀ d', (h d').daughters.length > 1 → (∃ p ∈ first, Parentless h p ∧ d' ∈ (h p).daughters) → d' = d

/-- The Higgs boson that decays: the last one in a chain of Higgs bosons with nothing else. -/
inductive Decaying (h : Mcs) : Nat → Nat → Prop where
  | here {p : Nat} (hn : ∀ d, (h p).daughters = [d] → (h d).pdg.natAbs ≠ 25) : Decaying h p p
  | later {p d q : Nat} (hd : (h p).daughters = [d]) (h25 : (h d).pdg.natAbs = 25) (ht : Decaying h d q) : Decaying h p q

/-- Codes of the particles in the final state. -/
def finalCodes : PF → List Nat
  | .electrons => [11] | .muons => [13] | .taus => [15] | .neutrinos => [12, 14, 16] | .photons => [22]
  | .dquarks => [1] | .uquarks => [2] | .squarks => [3] | .cquarks => [4] | .bquarks => [5]
  | _ => []

/-- Codes of the particles in a decay to a particle and its antiparticle. -/
def pairCodes : PF → List Nat
  | .higgsbb => [5] | .higgscc => [4] | .higgsdu => [1, 2] | .higgsss => [3] | .higgsgg => [21] | .higgstautau => [15] | .higgsmumu => [13]
  | .higgsWW => [24] | .higgsZZ => [23] | .higgsgaga => [22] | .higgsinv => [12, 14, 16, 1000022]
  | _ => []

/-- A decay to these two particles gets this flag. -/
def DecayFlag (a b : Int) (f : PF) : Prop :=
  (a.natAbs = b.natAbs ∧ a.natAbs ∈ pairCodes f) ∨ (f = .higgsgaZ ∧ ((a = 22 ∧ b = 23) ∨ (a = 23 ∧ b = 22)))

/-- The Higgs boson `p` decays to particles the first two of which have the codes `a` and `b`. -/
def DecaysTo (h : Mcs) (p : Nat) (a b : Int) : Prop :=
  ∃ q d e ds, Decaying h p q ∧ (h q).daughters = d :: e :: ds ∧ (h d).pdg = a ∧ (h e).pdg = b

/-- Flags for particles of the final state. -/
def isFinal (f : PF) : Bool := !(finalCodes f).isEmpty

/-- The flags for decays of Higgs bosons that have a definite meaning. -/
def isDecay (f : PF) : Bool := f ∈ [.higgsbb, .higgscc, .higgsdu, .higgsss, .higgsgg, .higgstautau, .higgsmumu, .higgsWW, .higgsZZ, .higgsgaga, .higgsgaZ, .higgsinv]

/-- What a flag says about the event, where `hard` are the particles of the hard final state. Two photons of files without beams are not counted. -/
def FlagMeans (h : Mcs) (kind : McCase) (hard : List Nat) (f : PF) : Prop :=
  if f = .unknown then hard = []
  else if f = .exotic then
    ∃ x ∈ hard, (h x).pdg.natAbs > 1000000 ∨ ((h x).pdg.natAbs = 25 ∧ ∃ q, Decaying h x q ∧ ∃ d ∈ (h q).daughters, (h d).pdg.natAbs > 1000000)
  else if f = .photons ∧ kind = .noBeams then hard.countP (fun x => (h x).pdg.natAbs = 22) > 2
  else if isFinal f then ∃ x ∈ hard, (h x).pdg.natAbs ∈ finalCodes f
  else if isDecay f then ∃ x ∈ hard, (h x).pdg.natAbs = 25 ∧ ∃ a b, DecaysTo h x a b ∧ DecayFlag a b f
  else ∃ x ∈ hard, (h x).pdg.natAbs = 25 ∧ ∀ f', isDecay f' → ∀ a b, DecaysTo h x a b → ¬ DecayFlag a b f'

end Spec
