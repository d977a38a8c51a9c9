import Verif.Spec.Sessions
import Verif.Spec.StdHepNew
import Verif.Util.StdHepJob
/-
The LCIO file made of a StdHep file: what a reader should get from it.
-/
namespace Spec
open Sio Lcio Util

/-- The spin of particle `i`: zero unless the event has spins. -/
def spinAt (std : Std Pid) (e : HepEvent) (i : Nat) : List W32 :=
  match e.ev4 with
  | none => [0, 0, 0]
  | some v => match v.spins[i]? with
    | none => [0, 0, 0]
    | some s => [std.narrow s.1, std.narrow s.2.1, std.narrow s.2.2]

/-- The color flow of particle `i`: zero unless the event has color flows. -/
def colorAt (e : HepEvent) (i : Nat) : List W32 :=
  match e.ev4 with
  | none => [0, 0]
  | some v => match v.colors[i]? with
    | none => [0, 0]
    | some c => [BitVec.ofInt 32 c.1, BitVec.ofInt 32 c.2]

/-- A particle on the LCIO file for entry `i` of an event: `q` is its charge in units of a third of the positron's (`third` converts it), numbers that are stored as `float` are
rounded. Its parents are those in `node`, in the same order, its daughters those in `node` in the order of the collection; `addr` tells where particles are in memory. -/
structure ParticleOf (std : Std Pid) (third : Int → W32) (overLight : W64 → W64) (e : HepEvent) (i : Nat) (t : LTrack) (node : PNode) (addr : Nat → Nat) (o : MCParticle) : Prop where
  pdg : o.pdg = BitVec.ofInt 32 t.pid
  status : o.genStatus = BitVec.ofInt 32 t.status
  simulated : o.simStatus = 0
  vertex : o.vertex = [t.x, t.y, t.z]
  momentum : o.p = [viaFloat std t.px, viaFloat std t.py, viaFloat std t.pz]
  mass : o.mass = viaFloat std t.m
  charge : ∃ q, threeCharge t.pid = .ok q ∧ o.charge = third q
  time : o.time = std.narrow (overLight t.t)
  spin : o.spin = spinAt std e i
  colorFlow : o.colorFlow = colorAt e i
  parents : o.parents = node.parents.map addr
  daughters : o.daughters = ((List.range e.tracks.length).filter (· ∈ node.daughters)).map addr

/-- The event number `count` of the LCIO file for an event `e` of the StdHep file, with the weight, the process number and the relations of its particles. -/
structure ConvertedEvent (std : Std Pid) (third : Int → W32) (overLight : W64 → W64) (count : Nat) (e : HepEvent) (weight : W64) (process : Int) (nodes : List PNode)
    (x : EventData) : Prop where
  run : x.1.run = 0
  number : x.1.evt = BitVec.ofNat 32 count
  detector : x.1.det = str "Unknown"
  process : x.1.params.ints = [(str "_idrup", [BitVec.ofInt 32 process])]
  weight : x.1.params.floats = [(str "_weight", [std.narrow (viaFloat std weight)])]
  texts : x.1.params.strs = []
  particles : ∃ c addr, x.2 = [(str "MCParticle", c)] ∧ c.type = str "MCParticle" ∧ c.elems.length = e.tracks.length ∧
    (∀ i, i < e.tracks.length → addr i ≠ 0) ∧ (∀ i j, i < e.tracks.length → j < e.tracks.length → addr i = addr j → i = j) ∧
    ∀ (i : Nat) t node, e.tracks[i]? = some t → nodes[i]? = some node →
      ∃ o, c.elems[i]? = some ⟨addr i, some (.mcParticle o)⟩ ∧ ParticleOf std third overLight e i t node addr o

/-- How many events are converted: all, or at most `maxEvt` if this is not negative. -/
def convertedCount (maxEvt : Int) (n : Nat) : Nat := if maxEvt < 0 then n else min maxEvt.toNat n

/-- Compression of less than 2 GiB succeeds, with a result of less than 2 GiB. -/
def Compresses (codec : Codec) : Prop := ∀ data : List Byte, data.length < 2 ^ 31 → ∃ comp, codec.compress data = .ok comp ∧ comp.length < 2 ^ 31

end Spec
