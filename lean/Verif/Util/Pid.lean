import Verif.Lcio.Params
import Verif.Lcio.Typed
/-
Algorithms of particle identification, src/cpp/src/UTIL/PIDHandler.cc and CollectionParameterMap.cc, on the parameters of a collection.
-/
namespace Util
open Sio Lcio

/-- `operator<` of `int`. -/
def intLt (a b : Int) : Bool := decide (a < b)

/-- The names of the parameters, PIDHandler.cc:23 and 74. -/
def pidKeyName : Str := str "PIDAlgorithmTypeName"
def pidValueName : Str := str "PIDAlgorithmTypeID"
def pidNamesKey (algo : Str) : Str := str "ParameterNames_" ++ algo

/-- `CollectionParameterMap::init`, CollectionParameterMap.cc:33-60. -/
def cpmInit (p : Params) : Except Err (List (Str × Int)) :=
  let keys := getVals p.strs pidKeyName []
  let values := getVals p.ints pidValueName []
  if keys.length ≠ values.length then .error .lcException
  else .ok ((keys.zip values).foldl (fun m e => omInsert strLt e.1 e.2.toInt m) [])

/-- `CollectionParameterMap::~CollectionParameterMap`, CollectionParameterMap.cc:63-91, for a collection that is not `const`. (An exception would end
the program.) -/
def cpmStore (m : List (Str × Int)) (p : Params) : Except Err Params := do
  let p ← p.setStrs pidKeyName (m.map (·.1))
  p.setInts pidValueName (m.map fun e => BitVec.ofInt 32 e.2)

/-- The members of `PIDHandler`, PIDHandler.h:122-129, without the collection and its type. -/
structure PidHandler where
  cpm : List (Str × Int) := []
  maxID : Int := -1
  pNames : List (Int × List Str) := []
  cpmInv : List (Int × Str) := []
  ids : List Int := []
  deriving DecidableEq

/-- One round of the loop in `PIDHandler::init`, PIDHandler.cc:47-85. -/
def PidHandler.initStep (p : Params) (h : PidHandler) (e : Str × Int) : Except Err PidHandler :=
  let id := e.2
  let aName := e.1
  let h := { h with maxID := if id > h.maxID then id else h.maxID }
  match omFind intLt id h.pNames with
  | some _ => .error .lcException
  | none =>
    let pNames := getVals p.strs (pidNamesKey aName) []
    .ok { h with pNames := (omAssign intLt id pNames h.pNames).1, ids := h.ids ++ [id], cpmInv := omInsert intLt id aName h.cpmInv }

/-- The constructor of `PIDHandler`, PIDHandler.cc:21-107: the handler or the exception, and the parameters of the collection then: when the constructor
fails after the map was made, the map is destroyed and stored. -/
def PidHandler.new (colType : Str) (p : Params) : Except Err PidHandler × Params :=
  match cpmInit p with
  | .error e => (.error e, p)
  | .ok cpm =>
    match cpm.foldlM (PidHandler.initStep p) ({ cpm } : PidHandler) with
    | .error e => (.error e, ((cpmStore cpm p).toOption.getD p))
    | .ok h =>
      if colType = str "ReconstructedParticle" ∨ colType = str "Cluster" then (.ok h, p)
      else (.error .lcException, ((cpmStore cpm p).toOption.getD p))

/-- `PIDHandler::~PIDHandler`, PIDHandler.cc:109-125, then that of the map. (`_cpmInv[id]` makes an empty name if there is none.) -/
def PidHandler.destroy (h : PidHandler) (p : Params) : Except Err Params := do
  let p ← h.pNames.foldlM (fun (p : Params) e => p.setStrs (pidNamesKey ((omFind intLt e.1 h.cpmInv).getD [])) e.2) p
  cpmStore h.cpm p

/-- `PIDHandler::addAlgorithm`, PIDHandler.cc:127-156. Beyond the largest `int` the next id is undefined. -/
def PidHandler.addAlgorithm (h : PidHandler) (algoName : Str) (pNames : List Str) : Except Err (Int × PidHandler) :=
  match omFind strLt algoName h.cpm with
  | some _ => .error .lcException
  | none =>
    if h.maxID + 1 ≥ 2 ^ 31 then .error .ub
    else
      let id := h.maxID + 1
      .ok (id,
        { h with
          maxID := id
          cpm := omInsert strLt algoName id h.cpm
          cpmInv := omInsert intLt id algoName h.cpmInv
          pNames := (omAssign intLt id pNames h.pNames).1
          ids := h.ids ++ [id] })

/-- `PIDHandler::getAlgorithmID`, PIDHandler.cc:158-168 (`UnknownAlgorithm` is a subclass of `Exception`). -/
def PidHandler.getAlgorithmID (h : PidHandler) (algoName : Str) : Except Err Int :=
  match omFind strLt algoName h.cpm with
  | none => .error .lcException
  | some id => .ok id

/-- `PIDHandler::getAlgorithmName`, PIDHandler.cc:170-181. -/
def PidHandler.getAlgorithmName (h : PidHandler) (id : Int) : Except Err Str :=
  match omFind intLt id h.cpmInv with
  | none => .error .lcException
  | some n => .ok n

/-- `PIDHandler::getParameterNames`, PIDHandler.cc:212-223. -/
def PidHandler.getParameterNames (h : PidHandler) (id : Int) : Except Err (List Str) :=
  match omFind intLt id h.pNames with
  | none => .error .lcException
  | some ps => .ok ps

/-- `PIDHandler::getParameterIndex`, PIDHandler.cc:185-209: -1 if there is no such name. -/
def PidHandler.getParameterIndex (h : PidHandler) (id : Int) (name : Str) : Except Err Int :=
  match omFind intLt id h.pNames with
  | none => .error .lcException
  | some ps => .ok (match ps.findIdx? (· == name) with | none => -1 | some i => i)

/-- Calls on one collection: an algorithm is added, or the handler is destroyed and a new one is made. -/
inductive PidCall where
  | add (name : Str) (pNames : List Str)
  | reload
  deriving DecidableEq

/-- A sequence of calls, with the ids that `addAlgorithm` returns (`none` for an exception). -/
def pidCalls (colType : Str) (h : PidHandler) (p : Params) : List PidCall → Except Err (List (Option Int) × PidHandler × Params)
  | [] => .ok ([], h, p)
  | .add n ps :: cs =>
    match h.addAlgorithm n ps with
    | .ok (id, h) => do let (rs, r) ← pidCalls colType h p cs; return (some id :: rs, r)
    | .error .lcException => do let (rs, r) ← pidCalls colType h p cs; return (none :: rs, r)
    | .error e => .error e
  | .reload :: cs =>
    match h.destroy p with
    | .error e => .error e
    | .ok p =>
      match PidHandler.new colType p with
      | (.error e, _) => .error e
      | (.ok h, p) => pidCalls colType h p cs

/-! ## The ParticleID objects of a particle or cluster -/

/-- A ParticleID: type, PDG, likelihood, algorithm, parameters. -/
structure PidObject where
  type : W32
  pdg : W32
  likelihood : W32
  algorithm : Int
  params : List W32
  deriving DecidableEq

/-- `PIDHandler::setParticleID`, PIDHandler.cc:367-475: the first ParticleID of the algorithm is overwritten, or a new one is appended
(`ReconstructedParticleImpl::addParticleID`, `ClusterImpl::addParticleID`). The caller's `static_cast` is assumed to be right, and the particle not to be
read-only. -/
def PidHandler.setParticleID (h : PidHandler) (l : List PidObject) (type pdg likelihood : W32) (id : Int) (params : List W32) : Except Err (List PidObject) :=
  match omFind intLt id h.pNames with
  | none => .error .lcException
  | some ps =>
    if params.length ≠ ps.length then .error .lcException
    else
      match l.findIdx? (·.algorithm == id) with
      | some i => .ok (l.set i { type, pdg, likelihood, algorithm := id, params })
      | none => .ok (l ++ [{ type, pdg, likelihood, algorithm := id, params }])

/-- `PIDHandler::getParticleID`, PIDHandler.cc:323-365: the first ParticleID of the algorithm; `none` is the dummy object. -/
def PidHandler.getParticleID (h : PidHandler) (l : List PidObject) (id : Int) : Except Err (Option PidObject) :=
  match omFind intLt id h.pNames with
  | none => .error .lcException
  | some _ => .ok (l.find? (·.algorithm == id))

/-- `PIDHandler::getParticleIDs`, PIDHandler.cc:280-321. -/
def PidHandler.getParticleIDs (h : PidHandler) (l : List PidObject) (id : Int) : Except Err (List PidObject) :=
  match omFind intLt id h.pNames with
  | none => .error .lcException
  | some _ => .ok (l.filter (·.algorithm == id))

/-- `PIDHandler::setParticleIDUsed`, PIDHandler.cc:232-277: the place of the ParticleID that becomes the used one. The particle is not read-only (ReconstructedParticleImpl.cc:152-155). -/
def PidHandler.setParticleIDUsed (h : PidHandler) (l : List PidObject) (id : Int) : Except Err Nat :=
  match omFind intLt id h.pNames with
  | none => .error .lcException
  | some _ => match l.findIdx? (·.algorithm == id) with
    | none => .error .lcException
    | some i => .ok i

end Util
