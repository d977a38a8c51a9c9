import Verif.Lcio.Build
/-
What users expect of objects while they are built up.
-/
namespace Spec
open Sio Lcio

/-- Every particle lists another one as parent exactly as often as that one lists it as daughter, and lists nothing twice as parent. -/
def Family (h : PHeap) : Prop :=
  (∀ p q np nq, h p = some np → h q = some nq → np.parents.count q = nq.daughters.count p) ∧
  ∀ p np, h p = some np → np.parents.Nodup

/-- The memory contains only new particles: without relatives. -/
def NewParticles (h : PHeap) : Prop := ∀ p n, h p = some n → n.parents = [] ∧ n.daughters = []

/-- Whenever a parent is added to a particle that may be changed, the parent may be changed as well. This is so if all particles have the same
access mode, as in an event. -/
def ParentsWritable (h : PHeap) (cs : List ParticleCall) : Prop :=
  ∀ (i : Nat) s p n m, cs[i]? = some (ParticleCall.addParent s p) → particleCalls h (cs.take i) s = some n → particleCalls h (cs.take i) p = some m →
    n.readOnly = false → m.readOnly = false

/-- Calls that add track states or change the parameters of the first one, or the access mode: not those that change the location of a
state that is already there or assign a whole track. -/
def AddingCall : TrackCall → Prop
  | .add _ _ => True
  | .setFirst a _ => a ≠ 0
  | .setReadOnly _ => True
  | _ => False

/-- The state at address `a` was added for a location. -/
def AddedAt (cs : List TrackCall) (as : List (Option Err)) (a : Nat) (location : W32) : Prop :=
  ∃ (i : Nat) (s : TrackState), cs[i]? = some (TrackCall.add a s) ∧ as[i]? = some none ∧ s.location = location

/-- The energy a call adds. -/
def addedEnergy : HitCall → Option W32
  | .addShort _ en _ => some en
  | .addLong _ en _ _ _ _ => some en
  | .setEnergy _ => none

/-- What is added for a particle by calls with three arguments: energies and times. -/
def addedFor (p : Nat) (cs : List HitCall) : List (W32 × W32) := cs.filterMap fun c => match c with
  | .addShort q en t => if q = p then some (en, t) else none
  | _ => none

/-- The elements of a list in the order of their first appearance. -/
def inOrder (l : List Nat) : List Nat := l.foldl (fun seen a => if a ∈ seen then seen else seen ++ [a]) []

/-- The `float` is a finite number that is not negative. -/
def nonNegative (x : W32) : Prop := x.toNat < 0x7f800000

/-- The `float` is a finite number. -/
def finite (x : W32) : Prop := x.toNat % 0x80000000 < 0x7f800000

end Spec
