import Verif.Util.HepEvt
/-
What the common block HEPEVT says about particles.
-/
namespace Spec
open Sio Util

/-- The mothers of an entry, as positions counted from 0: the first one, and those up to the second one. Numbers in the common block are counted from 1; 0
is none. -/
def entryMothers (l : HevLine) : List Nat :=
  if l.mother1 ≤ 0 then []
  else if l.mother2 ≤ l.mother1 then [(l.mother1 - 1).toNat]
  else List.range' (l.mother1 - 1).toNat (l.mother2 - l.mother1 + 1).toNat

/-- The daughters of an entry. -/
def entryDaughters (l : HevLine) : List Nat :=
  if l.daughter1 ≤ 0 then [] else List.range' (l.daughter1 - 1).toNat (l.daughter2 - l.daughter1 + 1).toNat

/-- The attributes of a particle are those of an entry. -/
structure SameEntry (p : HevParticle) (l : HevLine) : Prop where
  pdg : l.idhep = p.pdg
  status : l.isthep = p.status
  momentum : l.momentum = p.momentum
  mass : l.mass = p.mass
  vertex : l.vertex = p.vertex
  charge : l.charge = p.charge

/-- The attributes of two particles are the same, except that momentum and mass were converted to `float`. -/
structure SameUpToFloat (ar : HevArith) (p q : HevParticle) : Prop where
  pdg : q.pdg = p.pdg
  status : q.status = p.status
  momentum : q.momentum = (ar.toFloat p.momentum.1, ar.toFloat p.momentum.2.1, ar.toFloat p.momentum.2.2)
  mass : q.mass = ar.toFloat p.mass
  vertex : q.vertex = p.vertex
  charge : q.charge = p.charge

/-- These particles are some consecutive elements of the collection, in order; `pos` are their positions. -/
def ConsecutiveIn (col : List Nat) (ps : List Nat) (pos : List Nat) : Prop :=
  pos = List.range' (pos.headD 0) pos.length ∧ ps.map some = pos.map (col[·]?)

end Spec
