import Verif.Lcio.Reader
/-
The program `lcio_check_col_elements`, src/cpp/src/EXAMPLE/lcio_check_col_elements.cc.
-/
namespace Util
open Sio Lcio

/-- The options, lcio_check_col_elements.cc:38-60. They are 0 if they are not given (:208-222), and positive otherwise (:231-350: other values end the program).
Simplified: a relative error is the function that gives `(int)round(n * error)`; it does not exceed 2^31, and neither does the sum of the expected number and the error. The text of the arguments is not modelled, nor `-v` and `-h`. -/
structure CheckOpts where
  pedantic : Bool := false
  average : Bool := false
  startEvent : Nat := 0
  maxEvents : Nat := 0
  expElements : Nat := 0
  minElements : Nat := 0
  maxElements : Nat := 0
  absElementError : Nat := 0
  absEventError : Nat := 0
  relElementError : Option (Nat → Nat) := none
  relEventError : Option (Nat → Nat) := none

/-- The comparisons of `(float) total / n` with an integer, :565-583 and 619-631. -/
structure AvgCmp where
  below : (total n bound : Nat) → Bool
  above : (total n bound : Nat) → Bool

/-- The range of numbers of elements, :382-454; `none`: the usage is shown, and the program fails. A maximum of 0 is none. -/
def CheckOpts.wide (o : CheckOpts) : Option (Nat × Nat) :=
  if o.expElements > 0 then
    if o.absElementError > 0 ∨ o.relElementError.isSome then
      let err := match o.relElementError with
        | some f => if f o.expElements = 0 then 1 else f o.expElements
        | none => o.absElementError
      some (if o.minElements = 0 then o.expElements - err else o.minElements, if o.maxElements = 0 then o.expElements + err else o.maxElements)
    else
      some (if o.minElements = 0 then (if o.average then o.expElements - 1 else o.expElements) else o.minElements,
        if o.maxElements = 0 then (if o.average then o.expElements + 1 else o.expElements) else o.maxElements)
  else if o.absElementError > 0 ∨ o.relElementError.isSome then none
  else some (o.minElements, o.maxElements)

/-- The checks of the options, and of the range, :365-376 and 456-460. -/
def CheckOpts.range (o : CheckOpts) : Option (Nat × Nat) :=
  if o.absElementError > 0 ∧ o.relElementError.isSome then none
  else if o.absEventError > 0 ∧ o.relEventError.isSome then none
  else if (o.absEventError > 0 ∨ o.relEventError.isSome) ∧ o.average then none
  else match o.wide with
    | none => none
    | some (mn, mx) => if mx > 0 ∧ mx < mn then none else some (mn, mx)

/-- The counters, :55-59. -/
structure CheckCounts where
  elements : Nat := 0
  events : Nat := 0
  failed : Nat := 0
  skipped : Nat := 0
  deriving DecidableEq

/-- The number of elements of the collection in an event, `none` if `getCollection` throws `DataNotAvailableException`, :501-514. -/
def sizeIn (name : Str) (e : EventData) : Option Nat := (e.2.lookup name).map fun c => c.elems.length

/-- One event, :512-542. -/
def CheckCounts.add (o : CheckOpts) (mn mx : Nat) (c : CheckCounts) (size : Option Nat) : CheckCounts :=
  let c := match size with
    | some n =>
      let c := if n < mn then { c with failed := c.failed + 1 } else c
      let c := if mx > 0 then (if n > mx then { c with failed := c.failed + 1 } else c) else c
      { c with elements := c.elements + n }
    | none =>
      let c := { c with skipped := c.skipped + 1 }
      if o.pedantic then { c with failed := c.failed + 1 } else c
  { c with events := c.events + 1 }

/-- The loop over the events, :497-556. Only an `IOException` is caught. The first argument bounds the number of events. -/
def checkLoop (cfg : RConfig) (o : CheckOpts) (name : Str) (mn mx : Nat) : Nat → CheckCounts → Reader → Except Err CheckCounts
  | 0, _, _ => .error .diverge
  | fuel + 1, c, r => match r.readNextEvent cfg with
    | (.error .ioException, _) => .ok c
    | (.error e, _) => .error e
    | (.ok none, _) => .ok c
    | (.ok (some e), r) =>
      let c := c.add o mn mx (sizeIn name e)
      if o.maxEvents ≠ 0 ∧ c.events ≥ o.maxEvents then .ok c else checkLoop cfg o name mn mx fuel c r

/-- The result, :563-639. -/
def CheckCounts.result (cmp : AvgCmp) (o : CheckOpts) (mn mx : Nat) (c : CheckCounts) : Bool :=
  if c.events > 0 then
    let n := if o.pedantic then c.events else c.events - c.skipped
    let allowed := match o.relEventError with
      | some f => f c.events
      | none => o.absEventError
    if c.events = c.skipped then false
    else if o.average then
      if cmp.below c.elements n mn then false
      else if mx > 0 ∧ cmp.above c.elements n mx then false
      else true
    else if c.failed > allowed then false
    else true
  else false

/-- `main`, :202-640: whether the program returns `EXIT_SUCCESS`; an exception that is not caught ends the program in another way. -/
def checkElements (cfg : RConfig) (cmp : AvgCmp) (o : CheckOpts) (name : Str) (files : List (Str × List Byte)) (fuel : Nat) : Except Err Bool :=
  match o.range with
  | none => .ok false
  | some (mn, mx) => match Reader.openFiles cfg false files with
    | (.error e, _) => .error e
    | (.ok (), r) => match (if o.startEvent > 0 then r.skipNEvents o.startEvent else (.ok (), r)) with
      | (.error e, _) => .error e
      | (.ok (), r) => match checkLoop cfg o name mn mx fuel {} r with
        | .error e => .error e
        | .ok c => .ok (c.result cmp o mn mx)

end Util
