import Verif.Lcio.Params
import Verif.Util.Text
/-
Warnings, src/cpp/src/UTIL/LCWarning.cc. A line end (`endl`) is the byte 10.
-/
namespace Util
open Sio Lcio

/-- `_warning_cfg_struct`, src/cpp/include/UTIL/LCWarning.h:45-49. -/
structure WarnCfg where
  txt : Str := []
  max : Int := 0
  counter : Int := 0
  deriving DecidableEq

/-- `_warning_cfg`, LCWarning.h:51. -/
abbrev Warnings := List (Str × WarnCfg)

/-- `LCWarning::registerWarning`, LCWarning.cc:102-113. -/
def Warnings.register (w : Warnings) (id txt : Str) (max : Int) : Except Err Warnings :=
  match omFind strLt id w with
  | some _ => .error .lcException
  | none => .ok (omAssign strLt id { txt, max, counter := max } w).1

def endl : Str := [10]
def warnRule1 : Str := str "=========== WARNING ========================================================="
def warnRule2 : Str := str "============================================================================="
def warnRule3 : Str := str "+++++++++++++++++++++++++++++++++++++++++++++++++++++++++++++++++++++++++++++"

/-- What `LCWarning::printWarning` prints, LCWarning.cc:122-139. -/
def warnText (c : WarnCfg) : Str :=
  endl ++ endl ++ endl ++ warnRule1 ++ endl ++ c.txt ++
  (if c.counter > 1 then
    endl ++ str "*** this warning will be printed (at most) " ++ decInt c.max ++ str " time(s). [ " ++ decInt (c.counter - 1) ++ str " time(s) left ]"
  else
    endl ++ str "*** the maximum amount of times for printing this warning has been reached." ++
    endl ++ str "*** this warning will be printed one last time before the application exits.") ++
  endl ++ warnRule2 ++ endl ++ endl

/-- `LCWarning::printWarning`, LCWarning.cc:117-143: what it prints, and the warnings then. `_warning_cfg[ id ]` makes an entry if there is none. -/
def Warnings.print (w : Warnings) (id : Str) : Str × Warnings :=
  let w := match omFind strLt id w with
    | some _ => w
    | none => (omAssign strLt id {} w).1
  let c := (omFind strLt id w).getD {}
  if c.counter ≤ 0 then ([], w)
  else (warnText c, (omAssign strLt id { c with counter := c.counter - 1 } w).1)

/-- The loop of `LCWarning::~LCWarning`, LCWarning.cc:150-164: `first` is `first_warning`. -/
def warnEnd : Warnings → Bool → Str
  | [], _ => []
  | (_, c) :: w, first =>
    if c.max ≠ c.counter then
      (if first then endl ++ endl ++ endl ++ warnRule3 ++ endl ++ str "+++ FOLLOWING WARNINGS WERE FOUND:" ++ endl ++ warnRule3 else []) ++ endl ++ endl ++ c.txt ++ warnEnd w false
    else warnEnd w first

/-- `LCWarning::~LCWarning`, LCWarning.cc:148-166: what is printed when the program ends. -/
def Warnings.destroy (w : Warnings) : Str := warnEnd w true ++ endl ++ endl

/-- Calls of the two functions. -/
inductive WarnCall where
  | register (id txt : Str) (max : Int)
  | print (id : Str)
  deriving DecidableEq

/-- One call: what is printed or thrown, and the warnings then. -/
def Warnings.call (w : Warnings) : WarnCall → Except Err Str × Warnings
  | .register id txt max => match w.register id txt max with
    | .error e => (.error e, w)
    | .ok w => (.ok [], w)
  | .print id => let (s, w) := w.print id; (.ok s, w)

/-- Calls one after the other. -/
def Warnings.calls (w : Warnings) : List WarnCall → Warnings
  | [] => w
  | c :: cs => (w.call c).2.calls cs

/-- A line end within a text. -/
def lines2 (a b : String) : Str := str a ++ [10] ++ str b

/-- The warnings that the constructor registers, LCWarning.cc:12-96, each to be printed 10 times at most (LCWarning.h:31). -/
def builtinWarnings : List WarnCall :=
  [.register (str "SIMTRACKERHIT_DEPRECATED_GETDEDX")
    (lines2 "used DEPRECATED method SimTrackerHitImpl::getdEdx()" "please change your code to use SimTrackerHitImpl::getEDep() instead") 10,
   .register (str "SIMTRACKERHIT_DEPRECATED_SETDEDX")
    (lines2 "used DEPRECATED method SimTrackerHitImpl::setdEdx()" "please change your code to use SimTrackerHitImpl::setEDep() instead") 10,
   .register (str "SIMTRACKERHIT_DEPRECATED_GETCELLID")
    (lines2 "used DEPRECATED method SimTrackerHitImpl::getCellID()" "please change your code to use SimTrackerHitImpl::getCellID0() instead") 10,
   .register (str "SIMTRACKERHIT_DEPRECATED_SETCELLID")
    (lines2 "used DEPRECATED method SimTrackerHitImpl::setCellID()" "please change your code to use SimTrackerHitImpl::setCellID0() instead") 10,
   .register (str "TRACKERHIT_DEPRECATED_GETDEDX")
    (lines2 "used DEPRECATED method TrackerHitImpl::getdEdx()" "please change your code to use TrackerHitImpl::getEDep()") 10,
   .register (str "TRACKERHIT_DEPRECATED_SETDEDX")
    (lines2 "used DEPRECATED method TrackerHitImpl::setdEdx()" "please change your code to use TrackerHitImpl::setEDep() instead.") 10,
   .register (str "SIMCALORIMETERHIT_DEPRECATED_GETNMCPARTICLES")
    (lines2 "used DEPRECATED method SimCalorimeterHitImpl::getNMCParticles()" "please change your code to use SimCalorimeterHitImpl::getNMCContributions() instead") 10,
   .register (str "MCPARTICLE_DEPRECATED_GETNUMBEROFPARENTS")
    (lines2 "used DEPRECATED method MCParticleImpl::getNumberOfParents()" "please change your code to use MCParticleImpl::getParents().size() instead.") 10,
   .register (str "MCPARTICLE_DEPRECATED_GETPARENT")
    (lines2 "used DEPRECATED method MCParticleImpl::getParent(i)" "please change your code to use MCParticleImpl::getParents()[i] instead.") 10,
   .register (str "MCPARTICLE_DEPRECATED_GETNUMBEROFDAUGHTERS")
    (lines2 "used DEPRECATED method MCParticleImpl::getNumberOfDaughters()" "please change your code to use MCParticleImpl::getDaughters().size() instead.") 10,
   .register (str "MCPARTICLE_DEPRECATED_GETDAUGHTER")
    (lines2 "used DEPRECATED method MCParticleImpl::getDaughter(i)" "please change your code to use MCParticleImpl::getDaughters()[i] instead.") 10]

/-- The warnings after the constructor. -/
def Warnings.new : Warnings := Warnings.calls [] builtinWarnings

end Util
