import Verif.Util.FortranData
import Verif.Spec.Fortran
/-
What a Fortran program gives and expects to get (C109).
-/
namespace Spec
open Sio Lcio Fort

/-- A simulated tracker hit as a program gives it. -/
structure GivenTrackerHit where
  cellID : W32
  pos : List W64
  dEdx : W32
  time : W32
  particle : Nat
  deriving DecidableEq

/-- A program that makes these hits, one after the other. -/
def addTrackerHits (col : List SimTrackerHit) : List GivenTrackerHit → Except Err (List SimTrackerHit)
  | [] => .ok col
  | x :: xs => match addSimTrackerHit col x.cellID x.pos x.dEdx x.time x.particle with
    | .error e => .error e
    | .ok col => addTrackerHits col xs

/-- A simulated calorimeter hit as a program gives it. -/
structure GivenCaloHit where
  cellID0 : W32
  cellID1 : W32
  energy : W32
  pos : List W32
  deriving DecidableEq

/-- A contribution to a hit as a program gives it. -/
structure GivenContribution where
  particle : Nat
  energy : W32
  time : W32
  pdg : W32
  deriving DecidableEq

/-- What a program does: it makes another hit, or adds a contribution to the hit that it made as number `k`, counted from 0. -/
inductive CaloCall where
  | hit (x : GivenCaloHit)
  | contribution (k : Nat) (c : GivenContribution)
  deriving DecidableEq

/-- A program that makes these calls. -/
def caloAfter (col : List SimCalHit) : List CaloCall → Except Err (List SimCalHit)
  | [] => .ok col
  | .hit x :: cs => match addSimCaloHit col x.cellID0 x.cellID1 x.energy x.pos with
    | .error e => .error e
    | .ok col => caloAfter col cs
  | .contribution k c :: cs => match addContribution col k c.particle c.energy c.time c.pdg with
    | .error e => .error e
    | .ok col => caloAfter col cs

/-- The hits that are made. -/
def hitsGiven : List CaloCall → List GivenCaloHit
  | [] => []
  | .hit x :: cs => x :: hitsGiven cs
  | .contribution _ _ :: cs => hitsGiven cs

/-- The contributions that are added to hit number `k`. -/
def contributionsGiven (k : Nat) : List CaloCall → List GivenContribution
  | [] => []
  | .hit _ :: cs => contributionsGiven k cs
  | .contribution j c :: cs => if j = k then c :: contributionsGiven k cs else contributionsGiven k cs

/-- All positions are given by three numbers, and contributions are added to hits that were made before (`n` hits before). -/
def Sensible (n : Nat) : List CaloCall → Prop
  | [] => True
  | .hit x :: cs => x.pos.length = 3 ∧ Sensible (n + 1) cs
  | .contribution k _ :: cs => k < n ∧ Sensible n cs

/-- The value that was given last, if any was given. -/
def lastGiven {α : Type} (f : McpCall → Option α) (cs : List McpCall) : Option α := (cs.filterMap f).getLast?

/-- The arrays that are given have as many numbers as are needed. -/
def FullArrays : McpCall → Prop
  | .vertex v | .endpoint v => v.length = 3
  | .momentum v | .spin v => v.length = 3
  | .colorFlow v => v.length = 2
  | _ => True

end Spec
