import Verif.Spec.Event
import Verif.Lcio.Float
/-
Specification of copying: an event that was loaded is stored again.
-/
namespace Spec
open Sio Lcio

/-- The particle ids that an object has. -/
def idsOf : Obj → List Pid
  | .cluster o => o.pids
  | .recoParticle o => o.pids
  | _ => []

/-- The object with other particle ids, if it can have some. -/
def setPids (ps : List Pid) : Obj → Obj
  | .cluster o => .cluster { o with pids := ps }
  | .recoParticle o => .recoParticle { o with pids := ps }
  | o => o

/-- The likelihoods are in strictly descending order. -/
def Descending (ps : List Pid) : Prop := ps.Pairwise fun p q => fKey q.likelihood < fKey p.likelihood

/-- `o'` is the same as `o`, in every attribute, but at another place: whatever pointed at `a` points at `T a`. Particle ids with the same
likelihood may have changed places. -/
def SameObj (T : Nat → Nat) (o o' : Obj) : Prop :=
  ∃ ps, o' = setPids ps (o.mapPtr T) ∧ ps.Perm ((idsOf o).map fun p => { p with addr := T p.addr }) ∧
    (Descending (idsOf o) → ps = (idsOf o).map fun p => { p with addr := T p.addr })

/-- The collection `c'` is the same as `c`, at another place. -/
structure SameCol (T : Nat → Nat) (c c' : Str × Collection) : Prop where
  name : c'.1 = c.1
  type : c'.2.type = c.2.type
  flag : c'.2.flag = c.2.flag
  params : c'.2.params = c.2.params
  elems : All2 (fun e e' =>
    if c.2.flag.getLsbD 18 then e' = ⟨T e.addr, none⟩
    else (canPointAt c.2.flag (kindD c.2) = true → e'.addr = T e.addr) ∧ ∃ o o', e.obj = some o ∧ e'.obj = some o' ∧ SameObj T o o')
    c.2.elems c'.2.elems

/-- The event `(h', cols')` is the same as `(h, cols)`, at another place. -/
structure SameEvent (h h' : EventHeader) (cols cols' : List (Str × Collection)) : Prop where
  run : h'.run = h.run
  evt : h'.evt = h.evt
  time : h'.time = h.time
  det : h'.det = h.det
  ints : h'.params.ints = h.params.ints
  floats : h'.params.floats = h.params.floats
  strs : h'.params.strs = h.params.strs
  cols : ∃ T, Pointers cols T ∧ All2 (SameCol T) cols cols'

/-- The object at address `a`, among those that can be pointed at. -/
def objectAt (cols : List (Str × Collection)) (a : Nat) : Option Obj :=
  ((cols.filter fun c => !c.2.flag.getLsbD 18 && canPointAt c.2.flag (kindD c.2)).flatMap fun c => c.2.elems).find? (fun e => e.addr == a)
    |>.bind (·.obj)

/-- The collections of an event that was loaded, with the objects that the pointers in the subsets point at. -/
def resolved (cols : List (Str × Collection)) : List (Str × Collection) := cols.map fun c =>
  if c.2.flag.getLsbD 18 then (c.1, { c.2 with elems := c.2.elems.map fun e => ⟨e.addr, objectAt cols e.addr⟩ }) else c

/-- Likelihoods are numbers. -/
def NumbersOnly (cols : List (Str × Collection)) : Prop :=
  ∀ c ∈ cols, ∀ e ∈ c.2.elems, ∀ o, e.obj = some o → ∀ p ∈ idsOf o, fNaN p.likelihood = false

/-- Subsets of vertices consist of vertices of the other collections, and there are no subsets of generic objects. -/
def VertexSubsets (cols : List (Str × Collection)) : Prop := ∀ c ∈ cols, c.2.flag.getLsbD 18 = true →
  kindD c.2 ≠ .generic ∧
  (kindD c.2 = .vertex → ∀ e ∈ c.2.elems, ∃ d ∈ cols, d.2.flag.getLsbD 18 = false ∧ kindD d.2 = .vertex ∧ e ∈ d.2.elems)

/-- What is needed to copy an event: likelihoods are numbers, subsets of vertices consist of vertices of the event, and generic objects have
type names that are not empty. -/
structure Copyable (cs : List (Str × Collection)) : Prop where
  numbers : NumbersOnly cs
  vertices : VertexSubsets cs
  typeNames : ∀ c ∈ cs, ∀ e ∈ c.2.elems, ∀ o, e.obj = some (.generic o) → o.typeName ≠ []

end Spec
