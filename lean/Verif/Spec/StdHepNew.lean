import Verif.Spec.StdHep
/-
Mothers that entries of StdHep events name.
-/
namespace Spec
open Sio Util

/-- The particles that an entry names as its mothers, by the conventions that hold for daughters: a range, two particles, or one; numbers start with one. -/
def namedMothers (t : LTrack) : List Nat :=
  if 0 < t.mother1 ∧ 0 < t.mother2 then
    if t.mother1 ≤ t.mother2 then List.range' (t.mother1 - 1).toNat (t.mother2 - t.mother1 + 1).toNat
    else [(t.mother1 - 1).toNat, (t.mother2 - 1).toNat]
  else if 0 < t.mother1 then [(t.mother1 - 1).toNat]
  else []

/-- Mothers that are overlooked: the first particle of the event as only mother, two that are named in descending order, and one that comes with a negative second
number. -/
def Overlooked (t : LTrack) : Prop :=
  (t.mother1 = 1 ∧ t.mother2 = 0) ∨ (0 < t.mother2 ∧ t.mother2 < t.mother1) ∨ (0 < t.mother1 ∧ t.mother2 < 0)

instance (t : LTrack) : Decidable (Overlooked t) := by unfold Overlooked; infer_instance

/-- The numbers of mothers are those of particles of the event, if they are positive. -/
structure UsableMothers (e : HepEvent) : Prop where
  size : e.tracks.length < 2 ^ 31
  mothers : ∀ t ∈ e.tracks, -2 ^ 31 < t.mother1 ∧ t.mother1 ≤ e.tracks.length ∧ -2 ^ 31 < t.mother2 ∧ t.mother2 ≤ e.tracks.length

/-- Relations to which those of entries to certain particles (`moms`) were added: each entry gets those of them as further parents, in order, that were no
parents yet, and they get it as a further daughter. -/
structure WithMothers (e : HepEvent) (moms : LTrack → List Nat) (ns ns' : List Lcio.PNode) : Prop where
  length : ns'.length = ns.length
  symmetric : ∀ (i j : Nat) a b, ns'[i]? = some a → ns'[j]? = some b → (j ∈ a.daughters ↔ i ∈ b.parents)
  nodup : ∀ n ∈ ns', n.parents.Nodup ∧ n.daughters.Nodup
  parents : ∀ (j : Nat) t a b, e.tracks[j]? = some t → ns[j]? = some a → ns'[j]? = some b → b.parents = a.parents ++ (moms t).filter (fun i => i ∉ a.parents)
  daughters : ∀ (i : Nat) a b, ns[i]? = some a → ns'[i]? = some b →
    b.daughters = a.daughters ++ (List.range ns.length).filter fun j => j ∉ a.daughters ∧ i ∈ ((e.tracks[j]?).map moms).getD []

end Spec
