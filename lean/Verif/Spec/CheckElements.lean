import Verif.Util.CheckElements
/-
What `lcio_check_col_elements` is said to check (its usage text, lcio_check_col_elements.cc:86-152), for C95.
-/
namespace Spec
open Sio Lcio Util

/-- The error of the expected number of elements: relative, at least 1; absolute; or none, but 1 for the average. -/
def tolerance (o : CheckOpts) : Nat := match o.relElementError with
  | some f => max 1 (f o.expElements)
  | none => if o.absElementError > 0 then o.absElementError else if o.average then 1 else 0

/-- The smallest number of elements allowed: `--minelements` has priority. -/
def lowest (o : CheckOpts) : Nat := if o.minElements > 0 then o.minElements else if o.expElements > 0 then o.expElements - tolerance o else 0

/-- The largest number of elements allowed: `--maxelements` has priority. -/
def highest (o : CheckOpts) : Option Nat := if o.maxElements > 0 then some o.maxElements else if o.expElements > 0 then some (o.expElements + tolerance o) else none

/-- Options that cannot be used together. -/
def WrongOptions (o : CheckOpts) : Prop :=
  (o.absElementError > 0 ∧ o.relElementError ≠ none) ∨ (o.absEventError > 0 ∧ o.relEventError ≠ none) ∨ ((o.absEventError > 0 ∨ o.relEventError ≠ none) ∧ o.average = true) ∨
  (o.expElements = 0 ∧ (o.absElementError > 0 ∨ o.relElementError ≠ none)) ∨ (∃ u, highest o = some u ∧ u < lowest o)

/-- Whether an event fails; `none`: the collection is not in the event. -/
def EventFails (o : CheckOpts) : Option Nat → Prop
  | none => o.pedantic = true
  | some n => n < lowest o ∨ ∃ u, highest o = some u ∧ u < n

instance (u : Option Nat) (n : Nat) : Decidable (∃ v, u = some v ∧ v < n) := match u with
  | none => isFalse (by simp)
  | some v => if h : v < n then isTrue ⟨v, rfl, h⟩ else isFalse (by simpa using h)

instance (o : CheckOpts) (s : Option Nat) : Decidable (EventFails o s) := match s with
  | none => inferInstanceAs (Decidable (o.pedantic = true))
  | some n => inferInstanceAs (Decidable (n < lowest o ∨ ∃ u, highest o = some u ∧ u < n))

/-- The number of events that may fail. -/
def allowedFailures (o : CheckOpts) (events : Nat) : Nat := match o.relEventError with
  | some f => f events
  | none => o.absEventError

/-- The events looked at: from the start, not more than the maximum. -/
def lookedAt {α : Type} (o : CheckOpts) (es : List α) : List α := if o.maxEvents = 0 then es.drop o.startEvent else (es.drop o.startEvent).take o.maxEvents

/-- What the check is about: the numbers of elements of the events, `none` for those without the collection. With `--average` the mean of the numbers is in the range; without the collection counts as 0 if `--pedantic` is given and not at all otherwise. -/
def Passes (o : CheckOpts) (sizes : List (Option Nat)) : Prop :=
  (∃ n, some n ∈ sizes) ∧
  if o.average then
    let total := (sizes.filterMap id).sum
    let n := if o.pedantic then sizes.length else (sizes.filterMap id).length
    lowest o * n ≤ total ∧ ∀ u, highest o = some u → total ≤ u * n
  else sizes.countP (fun s => decide (EventFails o s)) ≤ allowedFailures o sizes.length

/-- Comparisons of an average with an integer are right as long as all numbers are exact as `float`. -/
def AvgExact (cmp : AvgCmp) : Prop := ∀ t n b, 0 < n → t < 2 ^ 24 → n < 2 ^ 24 → b < 2 ^ 24 → (cmp.below t n b = true ↔ t < b * n) ∧ (cmp.above t n b = true ↔ b * n < t)

end Spec
