import Verif.Spec.Copy
/-
Specification of adding collections to an event that was read.
-/
namespace Spec
open Sio Lcio

/-- The collections `all` are those of an event that was loaded, `cols`, and others that were added (src/cpp/src/EXAMPLE/recjob.cc:83-400), at whatever places their
names put them. The MCParticles that were added are not daughters of particles that were there: making them daughters changes those. -/
structure Extends (cols all : List (Str × Collection)) : Prop where
  kept : (resolved cols).Sublist all
  parents : ∀ c ∈ all, c ∉ resolved cols → isMC c = true → ∀ e ∈ c.2.elems, ∀ p ∈ parentsOf e, p ∉ mcAddrs cols

/-- What becomes of an object in a collection with the given flag word, as far as pointers are concerned: it can be found at its new place, and a relation leads to the new places of what it led to. -/
def Placed (T : Nat → Nat) (flag : W32) (e e' : Elem) : Prop := ∀ o, e.obj = some o →
  (canPointAt flag (classOf o).2 = true → e'.addr = T e.addr) ∧
  (∀ x, o = .relation x → ∃ x', e'.obj = some (.relation x') ∧ x'.from_ = T x.from_ ∧ x'.to = T x.to ∧ (flag.getLsbD 31 = true → x'.weight = x.weight))

end Spec
