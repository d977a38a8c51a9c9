import Verif.Util.Warning
/-
Warnings.
-/
namespace Spec
open Sio Lcio Util

/-- How a warning was registered: by the first call that does it. -/
def registration (id : Str) : List WarnCall → Option (Str × Int)
  | [] => none
  | .register i txt max :: cs => if i = id then some (txt, max) else registration id cs
  | .print _ :: cs => registration id cs

/-- How often the program has called for a warning. -/
def timesCalled (id : Str) : List WarnCall → Nat
  | [] => 0
  | .print i :: cs => (if i = id then 1 else 0) + timesCalled id cs
  | .register _ _ _ :: cs => timesCalled id cs

/-- No warning is called for before it is registered (unless it never is). -/
def RegisteredFirst (cs : List WarnCall) : Prop :=
  ∀ before id after, cs = before ++ .print id :: after → registration id after = none

/-- What is printed for a warning that will be printed `left` more times after that: three empty lines, a line with a headline, the text, how often it will be printed, a line at the end. -/
def warningText (txt : Str) (max left : Int) : Str :=
  [10, 10, 10] ++ str "=========== WARNING =========================================================" ++ [10] ++ txt ++ [10] ++
  (if left > 0 then
    str "*** this warning will be printed (at most) " ++ decInt max ++ str " time(s). [ " ++ decInt left ++ str " time(s) left ]"
  else
    str "*** the maximum amount of times for printing this warning has been reached." ++ [10] ++
    str "*** this warning will be printed one last time before the application exits.") ++
  [10] ++ str "=============================================================================" ++ [10, 10]

end Spec
