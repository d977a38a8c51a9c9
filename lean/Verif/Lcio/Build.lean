import Verif.Lcio.Float
/-
Member functions that build up objects: parents and daughters of MCParticles, track states of tracks, contributions to simulated calorimeter hits.
-/
namespace Lcio
open Sio

/-! ## Parents and daughters -/

/-- The members of an `IMPL::MCParticleImpl` that matter here: `_parents`, `_daughters` (src/cpp/include/IMPL/MCParticleImpl.h:290-296) and `_readOnly`. -/
structure PNode where
  parents : List Nat := []
  daughters : List Nat := []
  readOnly : Bool := false
  deriving DecidableEq, Repr

/-- The particles in memory by their addresses. An address without a particle is the null pointer or that of an object of another implementation of
the interface, for which `dynamic_cast<MCParticleImpl*>` gives null. -/
abbrev PHeap := Nat → Option PNode

/-- Change a particle. -/
def PHeap.set (h : PHeap) (a : Nat) (n : PNode) : PHeap := fun b => if b = a then some n else h b

/-- `MCParticleImpl::addDaughter`, src/cpp/src/IMPL/MCParticleImpl.cc:209-216, called on `mom`. The result is an exception, if there is one, and
the memory afterwards. -/
def addDaughter (h : PHeap) (mom : Nat) (n : PNode) (daughter : Nat) : Option Err × PHeap :=
  if n.readOnly then (some .readOnly, h)
  else (none, h.set mom { n with daughters := n.daughters ++ [daughter] })

/-- `MCParticleImpl::addParent`, MCParticleImpl.cc:218-232, called on the particle at `self`. -/
def addParent (h : PHeap) (self parent : Nat) : Option Err × PHeap :=
  match h self with
  | none => (some .ub, h)
  | some n =>
    if n.readOnly then (some .readOnly, h)
    else if n.parents.contains parent then (none, h)
    else
      let h := h.set self { n with parents := n.parents ++ [parent] }
      match h parent with
      | none => (none, h)
      | some mom => addDaughter h parent mom self

/-- Calls on particles: `addParent`, and setting the access mode of one particle (`AccessChecked::setReadOnly`, as done for the elements of a collection
and of an event). -/
inductive ParticleCall where
  | addParent (self parent : Nat)
  | setReadOnly (particle : Nat) (readOnly : Bool)
  deriving DecidableEq, Repr

/-- One call. -/
def particleCall (h : PHeap) : ParticleCall → Option Err × PHeap
  | .addParent self parent => addParent h self parent
  | .setReadOnly p ro => match h p with
    | none => (some .ub, h)
    | some n => (none, h.set p { n with readOnly := ro })

/-- A sequence of calls: the memory at the end. Exceptions are caught by the caller, who goes on. -/
def particleCalls (h : PHeap) : List ParticleCall → PHeap
  | [] => h
  | c :: cs => particleCalls (particleCall h c).2 cs

/-! ## Track states -/

/-- A track as far as track states are concerned: `_trackStates` (src/cpp/include/IMPL/TrackImpl.h:215), pointers to states; the states are given with
their addresses. -/
structure TrackObj where
  states : List (Nat × TrackState) := []
  readOnly : Bool := false
  deriving DecidableEq, Repr

/-- `TrackImpl::getTrackState`, src/cpp/src/IMPL/TrackImpl.cc:151-163: the first state with the location, 0 if there is none. -/
def TrackObj.getTrackState (t : TrackObj) (location : W32) : Nat :=
  match t.states.find? fun s => s.2.location == location with
  | none => 0
  | some s => s.1

/-- `TrackImpl::addTrackState`, TrackImpl.cc:350-360, of the state `s` at address `a`. `TrackState::AtOther` is 0
(EVENT/TrackState.h:37). A null pointer is dereferenced: undefined behaviour. -/
def TrackObj.addTrackState (t : TrackObj) (a : Nat) (s : TrackState) : Except Err TrackObj :=
  if t.readOnly then .error .readOnly
  else if a = 0 then .error .ub
  else if s.location ≠ 0 ∧ t.getTrackState s.location ≠ 0 then .error .lcException
  else .ok { t with states := t.states ++ [(a, s)] }

/-- `TrackImpl::setD0`, `setPhi`, `setOmega`, `setZ0`, `setTanLambda`, `setCovMatrix`, `setReferencePoint`, TrackImpl.cc:181-316: they change the only track
state, which is created (at address `a`) if there is none. `set` is the setter of the track state. (A new track state is not read-only, nor is
one that was read from a file.) -/
def TrackObj.setFirst (t : TrackObj) (a : Nat) (set : TrackState → TrackState) : Except Err TrackObj :=
  match t.states with
  | [] => .ok { t with states := [(a, set {})] }
  | [s] => .ok { t with states := [(s.1, set s.2)] }
  | _ => .error .lcException

/-- `TrackImpl::operator=`, TrackImpl.cc:30-51, for two different tracks: copies of the other track's states are added. `next` is the address of the
first copy. -/
def TrackObj.assign (t o : TrackObj) (next : Nat) : TrackObj :=
  { t with states := t.states ++ o.states.zipIdx.map fun s => (next + s.2, s.1.2) }

/-- The setters of the track that are passed on to its track state. -/
inductive FirstSetter where
  | d0 (v : W32) | phi (v : W32) | omega (v : W32) | z0 (v : W32) | tanLambda (v : W32) | cov (v : List W32) | reference (v : List W32)
  deriving DecidableEq, Repr

/-- `TrackStateImpl::setD0` and so on, src/cpp/src/IMPL/TrackStateImpl.cc:109-147. Arrays are given with their length. -/
def FirstSetter.set : FirstSetter → TrackState → TrackState
  | .d0 v, s => { s with d0 := v }
  | .phi v, s => { s with phi := v }
  | .omega v, s => { s with omega := v }
  | .z0 v, s => { s with z0 := v }
  | .tanLambda v, s => { s with tanLambda := v }
  | .cov v, s => { s with cov := v }
  | .reference v, s => { s with reference := v }

/-- Calls on a track. -/
inductive TrackCall where
  | add (a : Nat) (s : TrackState)
  | setFirst (a : Nat) (f : FirstSetter)
  | setReadOnly (readOnly : Bool)
  /-- `TrackStateImpl::setLocation` (TrackStateImpl.cc:100-107), called on the state at `a` through the pointer the user has -/
  | setLocation (a : Nat) (location : W32)
  /-- assigning another track -/
  | assign (o : TrackObj) (next : Nat)

/-- One call: an exception, if there is one, and the track afterwards. -/
def TrackObj.call (t : TrackObj) : TrackCall → Option Err × TrackObj
  | .add a s => match t.addTrackState a s with
    | .error e => (some e, t)
    | .ok t' => (none, t')
  | .setFirst a f => match t.setFirst a f.set with
    | .error e => (some e, t)
    | .ok t' => (none, t')
  | .setReadOnly ro => (none, { t with readOnly := ro })
  | .setLocation a l => (none, { t with states := t.states.map fun s => if s.1 = a then (s.1, { s.2 with location := l }) else s })
  | .assign o next => (none, t.assign o next)

/-- A sequence of calls: the exceptions, and the track at the end. -/
def TrackObj.calls (t : TrackObj) : List TrackCall → List (Option Err) × TrackObj
  | [] => ([], t)
  | c :: cs => let r := t.call c; let r' := r.2.calls cs; (r.1 :: r'.1, r'.2)

/-! ## Contributions to simulated calorimeter hits -/

/-- The first loop of `addMCParticleContribution(p, en, t)`, src/cpp/src/IMPL/SimCalorimeterHitImpl.cc:155-163: the energy is added to the first contribution
of the particle, if there is one. `add` is the addition of `float`s. -/
def addToParticle (add : W32 → W32 → W32) (p : Nat) (en : W32) : List SimCont → Option (List SimCont)
  | [] => none
  | c :: cs => if c.particle = p then some ({ c with energy := add c.energy en } :: cs) else (addToParticle add p en cs).map (c :: ·)

/-- `addMCParticleContribution(p, en, t)`, SimCalorimeterHitImpl.cc:144-167, after `checkAccess`. -/
def SimCalHit.addShort (add : W32 → W32 → W32) (h : SimCalHit) (p : Nat) (en t : W32) : SimCalHit :=
  let h := { h with energy := add h.energy en }
  match addToParticle add p en h.conts with
  | some cs => { h with conts := cs }
  | none => { h with conts := h.conts ++ [{ particle := p, energy := en, time := t }] }

/-- `addMCParticleContribution(p, en, t, l, pdg, stepPos)`, SimCalorimeterHitImpl.cc:171-189, after `checkAccess`. -/
def SimCalHit.addLong (add : W32 → W32 → W32) (h : SimCalHit) (p : Nat) (en t l pdg : W32) (stepPos : Option (List W32)) : SimCalHit :=
  { h with energy := add h.energy en,
           conts := h.conts ++ [{ particle := p, energy := en, time := t, length := l, pdg := pdg, stepPosition := stepPos.getD zero3 }] }

/-- Calls on a hit. -/
inductive HitCall where
  | addShort (p : Nat) (en t : W32)
  | addLong (p : Nat) (en t l pdg : W32) (stepPos : Option (List W32))
  | setEnergy (en : W32)
  deriving DecidableEq, Repr

/-- One call. `setEnergy`: SimCalorimeterHitImpl.cc:131-134. -/
def SimCalHit.call (add : W32 → W32 → W32) (h : SimCalHit) : HitCall → SimCalHit
  | .addShort p en t => h.addShort add p en t
  | .addLong p en t l pdg s => h.addLong add p en t l pdg s
  | .setEnergy en => { h with energy := en }

/-- A sequence of calls. -/
def SimCalHit.calls (add : W32 → W32 → W32) (h : SimCalHit) (cs : List HitCall) : SimCalHit := cs.foldl (·.call add ·) h

/-! ## Addition of `float`s -/

/-- The magnitude of a finite `float` in units of 2^-149. -/
def fMag (x : W32) : Nat :=
  let e := x.toNat / 8388608 % 256
  let m := x.toNat % 8388608
  if e = 0 then m else (m + 8388608) * 2 ^ (e - 1)

/-- The value of a finite `float` in units of 2^-149. -/
def fVal (x : W32) : Int := if x.toNat < 2147483648 then fMag x else -fMag x

/-- The magnitude bits of the `float` nearest to `n` times 2^-149, ties to even; infinity if it is too large. -/
def fRound (n : Nat) : Nat :=
  if n < 16777216 then n else min ((n.log2 - 23) * 8388608 + rne n (n.log2 - 23)) 2139095040

/-- The magnitude bits are those of an infinity. -/
def fInf (x : W32) : Bool := x.toNat % 2147483648 = 2139095040

/-- Addition of `float`s (IEEE 754, rounding to nearest; every NaN result is the default one). -/
def ieeeAdd (x y : W32) : W32 :=
  if fNaN x || fNaN y then 0x7fc00000#32
  else if fInf x then (if fInf y && x != y then 0x7fc00000#32 else x)
  else if fInf y then y
  else
    let s := fVal x + fVal y
    if s > 0 then pack32 0 (fRound s.natAbs)
    else if s < 0 then pack32 1 (fRound s.natAbs)
    else if x.toNat ≥ 2147483648 ∧ y.toNat ≥ 2147483648 then pack32 1 0 else pack32 0 0

end Lcio
