import Verif.Lcio.Event
import Verif.Util.TypeName
import Verif.Util.CellID
import Verif.Util.Pid
import Verif.Util.Iterator
/-
Printing an event in detail, `LCTOOLS::dumpEventDetailed`, src/cpp/src/UTIL/LCTOOLS.cc:83-227, as `dumpevent` does it: which objects are used for it. The text itself is left out here; that of
particles and parameters is in Util/Dump.lean. Arrays of fixed size always have that size, and reading them is left out as well: what the vectors `_cov`, `_errpos` and `_errdir` of the classes
have is set by the constructors.
-/
namespace Util
open Sio Lcio

/-! ## Steps -/

/-- First one step, then, if no exception was thrown, the other. -/
def andThen (a b : Except Err Unit) : Except Err Unit := match a with
  | .error e => .error e
  | .ok _ => b

/-- A loop. -/
def forEach {α : Type} (f : α → Except Err Unit) : List α → Except Err Unit
  | [] => .ok ()
  | x :: xs => andThen (f x) (forEach f xs)

/-- A step that only has to work. -/
def works {α : Type} : Except Err α → Except Err Unit
  | .error e => .error e
  | .ok _ => .ok ()

/-! ## Objects by address -/

/-- The object of an event at an address. -/
def eventObject (cols : List (Str × Collection)) (a : Nat) : Option Obj := ((allElems cols).find? fun e => e.addr == a && e.obj.isSome).bind (·.obj)

/-- There is a particle id of a reconstructed particle at an address. -/
def pidAt (cols : List (Str × Collection)) (a : Nat) : Bool := (allElems cols).any fun e => match e.obj with
  | some (.recoParticle o) => o.pids.any fun p => p.addr == a
  | _ => false

/-- There is an object of the class `T` at an address: the pointer to it can be used. -/
def usable (cols : List (Str × Collection)) (T : Str) (a : Nat) : Bool := ((eventObject cols a).map (castsTo T)).getD false

/-- There is an object at an address. -/
def anyObject (cols : List (Str × Collection)) (a : Nat) : Bool := (eventObject cols a).isSome || pidAt cols a

/-- `p->id()`: undefined unless there is an object of the class of the pointer. -/
def use (ok : Nat → Bool) (p : Nat) : Except Err Unit := if ok p then .ok () else .error .ub

/-- `( p ? p->id() : 0 )`. -/
def useIf (ok : Nat → Bool) (p : Nat) : Except Err Unit := if p = 0 then .ok () else use ok p

/-! ## Objects, src/cpp/src/UTIL/Operators.cc -/

/-- `if( col->getParameters().getStringVal( LCIO::CellIDEncoding ) != "" ){ CellIDDecoder<…> id( col ) ; … }`, as in Operators.cc:850-858 and eight other places. -/
def showFields (c : Collection) : Except Err Unit := match getVal [] c.params.strs encodingKey with
  | .error e => .error e
  | .ok s => if s = [] then .ok () else works (decoderOfCollection (some c))

/-- The loop over the daughters of `MCParticleImpl::getEndpoint`, src/cpp/src/IMPL/MCParticleImpl.cc:145-149. -/
def endpointLoop (cols : List (Str × Collection)) : List Nat → Except Err Unit
  | [] => .ok ()
  | d :: ds => match eventObject cols d with
    | some (.mcParticle q) => if q.simStatus.getLsbD 28 then endpointLoop cols ds else .ok ()
    | _ => .error .ub

/-- A vertex of a particle, Operators.cc:2174-2192: `sv->id()` and that of its particle. -/
def showVertex (cols : List (Str × Collection)) (v : Nat) : Except Err Unit :=
  if v = 0 then .ok ()
  else match eventObject cols v with
    | some (.vertex o) => useIf (usable cols (str "ReconstructedParticle")) o.particle
    | _ => .error .ub

/-- `ReconstructedParticleImpl::getEndVertex`, src/cpp/src/IMPL/ReconstructedParticleImpl.cc:72-77: the start vertex of the first particle. -/
def showEndVertex (cols : List (Str × Collection)) : List Nat → Except Err Unit
  | [] => .ok ()
  | p :: _ => match eventObject cols p with
    | some (.recoParticle o) => showVertex cols o.startVertex
    | _ => .error .ub

/-- The line or lines of an object, in the order of the code: `lcio_short` of the classes, LCTOOLS.cc:1184-1241 for an `MCParticle`. `contr[k]` of a cluster (Operators.cc:2669) is undefined
behind the end of the vector. -/
def showObject (cols : List (Str × Collection)) (c : Collection) : Obj → Except Err Unit
  | .mcParticle o => if o.simStatus.getLsbD 31 then .ok () else endpointLoop cols o.daughters
  | .simCalHit o => andThen (showFields c) (forEach (fun x => useIf (usable cols (str "MCParticle")) x.particle) o.conts)
  | .rawCalHit _ => showFields c
  | .calHit _ => showFields c
  | .simTrackerHit o => andThen (useIf (usable cols (str "MCParticle")) o.particle) (showFields c)
  | .tpcHit _ => .ok ()
  | .trackerRawData _ => showFields c
  | .trackerData _ => showFields c
  | .trackerPulse o => andThen (useIf (usable cols (str "TrackerData")) o.corrData) (showFields c)
  | .trackerHit o => andThen (forEach (useIf (anyObject cols)) o.rawHits) (showFields c)
  | .trackerHitPlane o => andThen (forEach (useIf (anyObject cols)) o.rawHits) (showFields c)
  | .trackerHitZCylinder o => andThen (forEach (useIf (anyObject cols)) o.rawHits) (showFields c)
  | .track o => andThen (forEach (useIf (usable cols (str "Track"))) o.tracks)
      (if c.flag.getLsbD 31 then forEach (useIf (usable cols (str "TrackerHit"))) o.hits else .ok ())
  | .cluster o => andThen (forEach (useIf (usable cols (str "Cluster"))) o.clusters)
      (if c.flag.getLsbD 31 then andThen (forEach (useIf (usable cols (str "CalorimeterHit"))) o.hits) (if o.hits.length ≤ o.weights.length then .ok () else .error .ub) else .ok ())
  | .recoParticle o => andThen (useIf (pidAt cols) o.pidUsed)
      (andThen (forEach (use (usable cols (str "ReconstructedParticle"))) o.particles)
        (andThen (forEach (useIf (usable cols (str "Track"))) o.tracks)
          (andThen (forEach (useIf (usable cols (str "Cluster"))) o.clusters)
            (andThen (showVertex cols o.startVertex) (showEndVertex cols o.particles)))))
  | .relation o => andThen (useIf (anyObject cols) o.from_) (useIf (anyObject cols) o.to)
  | .vertex o => useIf (usable cols (str "ReconstructedParticle")) o.particle
  | .strVec _ => .ok ()
  | .floatVec _ => .ok ()
  | .intVec _ => .ok ()
  | .generic _ => .ok ()

/-! ## Collections -/

/-- `dynamic_cast<T*>( col->getElementAt( i ) )` for an element of a collection, or of a subset. -/
def elementAs (cols : List (Str × Collection)) (T : Str) (e : Elem) : Option Obj := dynCast (castsTo T) (match e.obj with
  | some o => some o
  | none => eventObject cols e.addr)

/-- An element: nothing is done about null pointers, as in LCTOOLS.cc:253-257 and everywhere else. -/
def showElement (cols : List (Str × Collection)) (c : Collection) (e : Elem) : Except Err Unit := match elementAs cols c.type e with
  | none => .error .ub
  | some o => showObject cols c o

/-- `MAX_HITS`, LCTOOLS.cc:49. -/
def maxHits : Nat := 1000

/-- The elements printed: all particles and relations, and at most `MAX_HITS` of any other type. -/
def printedElems (k : Kind) (c : Collection) : List Elem := if k = .mcParticle ∨ k = .relation then c.elems else c.elems.take maxHits

/-- What is done before the elements: a decoder is made for collections of hits with cell ids (LCTOOLS.cc:446, 485, 522, 740, 781, 821), and single parameters are read (LCTOOLS.cc:1264-1265,
Operators.cc:257). -/
def printHead (k : Kind) (c : Collection) : Except Err Unit := match k with
  | .trackerRawData => works (decoderOfCollection (some c))
  | .trackerData => works (decoderOfCollection (some c))
  | .trackerPulse => works (decoderOfCollection (some c))
  | .simCalHit => works (decoderOfCollection (some c))
  | .calHit => works (decoderOfCollection (some c))
  | .rawCalHit => works (decoderOfCollection (some c))
  | .relation => andThen (works (getVal [] c.params.strs (str "FromType"))) (works (getVal [] c.params.strs (str "ToType")))
  | .generic => works (getVal [] c.params.strs (str "DataDescription"))
  | _ => .ok ()

/-! ## User objects -/

/-- What `header` makes for a collection of user objects, Operators.cc:249-262: its description. `GOBIT_FIXED` is 31. -/
def ownHeader (c : Collection) : Except Err Str := match getVal [] c.params.strs (str "DataDescription") with
  | .error e => .error e
  | .ok d => .ok (str " [   id   ] " ++ d ++ str " - isFixedSize: " ++ (if c.flag.getLsbD 31 then str "true" else str "false") ++ [10])

/-- `header( obj, col )`, Operators.cc:249-267: what it returns is in a variable that is `static` and set in the first call of the program. `made`: its value, if there was one. -/
def genericHeader (made : Option Str) (c : Collection) : Except Err Str := match ownHeader c with
  | .error e => .error e
  | .ok h => .ok (made.getD h)

/-- The headers printed for several collections of user objects, one after the other, LCTOOLS.cc:1118-1120. -/
def genericHeaders (made : Option Str) : List Collection → Except Err (List Str)
  | [] => .ok []
  | c :: cs => match genericHeader made c with
    | .error e => .error e
    | .ok h => match genericHeaders (some h) cs with
      | .error e => .error e
      | .ok hs => .ok (h :: hs)

/-! ## Particle ids -/

/-- A particle id of a cluster, LCTOOLS.cc:919-940: `pid->getParameters()[j]` for each name of the algorithm. An unknown algorithm is caught. -/
def showClusterPid (h : PidHandler) (p : Pid) : Except Err Unit := match h.getParameterNames p.algorithmType.toInt with
  | .error _ => .ok ()
  | .ok names => if names.length ≤ p.params.length then .ok () else .error .ub

/-- The particle ids of an element, LCTOOLS.cc:903-944 and 1044-1085. Those of a reconstructed particle are printed only if there are as many parameters as names. -/
def showPids (cols : List (Str × Collection)) (h : PidHandler) (c : Collection) (e : Elem) : Except Err Unit := match elementAs cols c.type e with
  | some (.cluster o) => forEach (showClusterPid h) o.pids
  | some (.recoParticle _) => .ok ()
  | _ => .error .ub

/-- What is done behind the elements: `printClusters`, LCTOOLS.cc:866-949, and `printReconstructedParticles`, LCTOOLS.cc:1007-1092. What the constructor of `PIDHandler` throws is not caught. -/
def printTail (cols : List (Str × Collection)) (k : Kind) (c : Collection) : Except Err Unit :=
  if k = .cluster ∨ k = .recoParticle then
    match (PidHandler.new c.type c.params).1 with
    | .error e => .error e
    | .ok h => forEach (showPids cols h c) (printedElems k c)
  else .ok ()

/-- One collection, LCTOOLS.cc:110-223: nothing is printed for types that are not known. -/
def printCollection (cols : List (Str × Collection)) (c : Collection) : Except Err Unit := match kindOf c.type with
  | none => .ok ()
  | some k => andThen (printHead k c) (andThen (forEach (showElement cols c) (printedElems k c)) (printTail cols k c))

/-- `LCTOOLS::dumpEventDetailed`, LCTOOLS.cc:83-227. -/
def dumpEventDetailed (cols : List (Str × Collection)) : Except Err Unit := forEach (fun c : Str × Collection => printCollection cols c.2) cols

end Util
