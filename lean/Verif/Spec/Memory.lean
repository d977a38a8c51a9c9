import Verif.Spec.Calls
import Verif.Lcio.Memory
/-
What users expect of an event as a container of collections, and of parameters: maps from names to values.
-/
namespace Spec
open Sio Lcio

/-- Lexicographic order of byte strings: `a` is a proper prefix of `b`, or they first differ where `a` has the smaller byte. -/
def Before (a b : Str) : Prop :=
  (∃ c r, b = a ++ c :: r) ∨ ∃ p x y r s, a = p ++ x :: r ∧ b = p ++ y :: s ∧ x.toNat < y.toNat

/-- `l` lists exactly the `x` with `P x`, once each and in lexicographic order. -/
def Lists (l : List Str) (P : Str → Prop) : Prop := l.Pairwise Before ∧ ∀ x, x ∈ l ↔ P x

/-! ## Collections of an event -/

/-- What an event looks like from outside: which collection has a name, and whether the event can be changed. -/
structure EventView where
  cols : Str → Option Nat
  readOnly : Bool

/-- A new event: no collections. -/
def EventView.empty : EventView := ⟨fun _ => none, false⟩

/-- What a call must answer and what it must do. -/
def CallSpec (v : EventView) : EventCall → EventAnswer → EventView → Prop
  | .add col name, a, v' =>
    (isIdentifier name ∧ v.cols name = none ∧ col ≠ 0 → a = .done ∧ v' = ⟨fun n => if n = name then some col else v.cols n, v.readOnly⟩) ∧
    (¬(isIdentifier name ∧ v.cols name = none ∧ col ≠ 0) → a = .threw .eventException ∧ v' = v)
  | .get name, a, v' => v' = v ∧ (∀ c, v.cols name = some c → a = .collection c) ∧ (v.cols name = none → a = .threw .notAvailable)
  | .take name, a, v' => v' = v ∧ (∀ c, v.cols name = some c → a = .collection c) ∧ (v.cols name = none → a = .threw .notAvailable)
  | .remove name, a, v' =>
    (v.readOnly = false → a = .done ∧ v' = ⟨fun n => if n = name then none else v.cols n, v.readOnly⟩) ∧
    (v.readOnly = true → a = .threw .readOnly ∧ v' = v)
  | .names, a, v' => v' = v ∧ ∃ l, a = .names l ∧ Lists l fun n => v.cols n ≠ none
  | .setAccessMode ro, a, v' => a = .done ∧ v' = ⟨v.cols, ro⟩

/-- A sequence of calls and their answers, with what the event looks like before and after. -/
def CallsSpec (v : EventView) : List EventCall → List EventAnswer → EventView → Prop
  | [], as, v' => as = [] ∧ v' = v
  | c :: cs, as, v' => ∃ a as' v₁, as = a :: as' ∧ CallSpec v c a v₁ ∧ CallsSpec v₁ cs as' v'

/-- `c` was handed out by a call of `takeCollection`. -/
def Taken (cs : List EventCall) (as : List EventAnswer) (c : Nat) : Prop := ∃ (i : Nat) (name : Str), cs[i]? = some (EventCall.take name) ∧ as[i]? = some (EventAnswer.collection c)

/-! ## Parameters -/

/-- Three independent maps from keys to lists of values. -/
abbrev PMaps := (t : PType) → Str → Option (List t.T)

/-- The map of type `t` gets values for a key; everything else stays. -/
def PMaps.put (m : PMaps) (t : PType) (key : Str) (vs : List t.T) : PMaps :=
  fun t' k => if h : t' = t then (if k = key then some (h ▸ vs) else m t' k) else m t' k

/-- What a call must answer and what it must do. -/
def ParamSpec (m : PMaps) : ParamCall → ParamAnswer → PMaps → Prop
  | .set t k v, a, m' => a = .done ∧ m' = m.put t k [v]
  | .setAll t k vs, a, m' => a = .done ∧ m' = m.put t k vs
  | .get t k, a, m' => m' = m ∧ ∃ v, a = .value t v ∧ (m t k = none → v = t.zero) ∧ (∀ vs, m t k = some vs → vs[0]? = some v)
  | .getAll t k given, a, m' => m' = m ∧ a = .values t (given ++ (m t k).getD [])
  | .keys t given, a, m' => m' = m ∧ ∃ l, a = .keys (given ++ l) ∧ Lists l fun k => m t k ≠ none
  | .count t k, a, m' => m' = m ∧ a = .number ((m t k).getD []).length
  | .setOwn k s, a, m' => a = .done ∧ ∃ v : Str, ((m .str s = none → v = []) ∧ ∀ vs, m .str s = some vs → vs[0]? = some v) ∧ m' = m.put .str k [v]

/-- A sequence of calls and their answers. -/
def ParamsSpec (m : PMaps) : List ParamCall → List ParamAnswer → PMaps → Prop
  | [], as, m' => as = [] ∧ m' = m
  | c :: cs, as, m' => ∃ a as' m₁, as = a :: as' ∧ ParamSpec m c a m₁ ∧ ParamsSpec m₁ cs as' m'

/-- Calls that are safe: single values are not read from a key that was given an empty list, and a string is not assigned from its own key. -/
def SafeCall (m : PMaps) : ParamCall → Prop
  | .get t k => m t k ≠ some []
  | .setOwn k s => m .str s ≠ some [] ∧ (k = s → m .str s = none)
  | _ => True

/-- All calls of a sequence are safe when they are made. -/
def SafeCalls (m : PMaps) : List ParamCall → Prop
  | [] => True
  | c :: cs => SafeCall m c ∧ ∀ a m₁, ParamSpec m c a m₁ → SafeCalls m₁ cs

end Spec
