import Verif.Util.StdHepNew
import Verif.Lcio.Writer
/-
The programs stdhepjob and stdhepjob_new: a StdHep file is converted to an LCIO file, src/cpp/src/EXAMPLE/stdhepjob.cc and stdhepjob_new.cc. They differ only in the
reader and in comments.
-/
namespace Util
open Sio Lcio

/-- The arithmetic of the reader of StdHep files on a machine with the conversions of `std`. -/
def hepArithOf (std : Std Pid) (overLight : W64 → W64) : HepArith := ⟨std.narrow, std.widen, overLight⟩

/-- The MCParticle made of an entry, LCStdHepRdr.cc:163-226 (the simulator status is set to 0 in line 208, the other members are those of the constructor).
`third` is division of a number by `3.` and conversion to `float` (line 185); the particle with index `i` is at address `i + 1`. -/
def hepMC (third : Int → W32) (p : HepParticle) (n : PNode) : MCParticle :=
  { pdg := BitVec.ofInt 32 p.pdg
    genStatus := BitVec.ofInt 32 p.genStatus
    vertex := p.vertex
    p := p.momentum
    mass := p.mass
    charge := third p.charge3
    time := p.time
    parents := n.parents.map (· + 1)
    daughters := n.daughters.map (· + 1)
    spin := p.spin
    colorFlow := p.colorFlow.map (BitVec.ofInt 32) }

/-- The collection as an object, LCStdHepRdr.cc:127 and 154-163: type, parameters `_idrup` (if there is one) and `_weight`, and elements. -/
def hepCol (third : Int → W32) (c : HepCollection) : Collection :=
  { type := str "MCParticle"
    params :=
      { ints := match c.idrup with
          | none => []
          | some n => [(str "_idrup", [BitVec.ofInt 32 n])]
        floats := [(str "_weight", [c.weight])] }
    elems := (c.particles.zip c.relatives).zipIdx.map fun x => ⟨x.2 + 1, some (.mcParticle (hepMC third x.1.1 x.1.2))⟩ }

/-- What `updateNextEvent` reads: the parameters `_idrup` and `_weight`, and the collection. -/
abbrev HepUpdate := Int × W32 × HepCollection

/-- The header of the event, stdhepjob.cc:77-84: run 0, the number, detector and parameters (LCStdHepRdr.cc:66-74). -/
def hepEventHeader (count : Nat) (u : HepUpdate) : EventHeader :=
  { run := 0, evt := BitVec.ofNat 32 count, det := str "Unknown", params := { ints := [(str "_idrup", [BitVec.ofInt 32 u.1])], floats := [(str "_weight", [u.2.1])] } }

/-- The collections of the event, stdhepjob.cc:84, LCStdHepRdr.cc:80. -/
def hepEventCols (third : Int → W32) (u : HepUpdate) : List (Str × Collection) := [(str "MCParticle", hepCol third u.2.2)]

/-- The run header, stdhepjob.cc:56-67 (the name of the program is the same in stdhepjob_new.cc). -/
def hepRunHeader (inFile : Str) : RunHeader :=
  { run := 0, det := str "Unknown", descr := str " file generated with LCIO stdhepjob from " ++ inFile }

/-- What the machine and the libraries do: compression, conversions and the arithmetic of charges; and what the buffers of the writer contain when an event is written. -/
structure HepJob where
  codec : Codec
  std : Std Pid
  third : Int → W32
  bufs : Nat → Str × Str
  runBuf : Str

/-- The loop, stdhepjob.cc:73-95, with a reader given by its `updateNextEvent`: the number of events and the writer. The first argument bounds the number of rounds.
The exception at the end of the data is caught, others are not. The writer compresses (`createLCWriter`, src/cpp/src/IOIMPL/LCFactory.cc:36-43). -/
def hepJobLoop (j : HepJob) (upd : LStdHep → Except Err (HepUpdate × LStdHep)) (maxEvt : Int) : Nat → Nat → LStdHep → Writer → Except Err (Nat × Writer)
  | 0, _, _, _ => .error .diverge
  | fuel + 1, count, s, w =>
    if maxEvt < 0 ∨ (count : Int) < maxEvt then
      match upd s with
      | .error .endOfData => .ok (count, w)
      | .error e => .error e
      | .ok (u, s) =>
        match w.writeEvent j.codec j.std true (j.bufs count).1 (j.bufs count).2 (hepEventHeader count u) (hepEventCols j.third u) with
        | (.error e, _) => .error e
        | (.ok (), w) => hepJobLoop j upd maxEvt fuel (count + 1) s w
    else .ok (count, w)

/-- The program with its arguments, stdhepjob.cc:25-106, if there are enough of them: the number of events that is printed, and the content of the output file.
`LCWriter::open` throws if there is a file with this name (src/cpp/src/SIO/SIOWriter.cc:20-33). The printing of the header of the input file is not modelled. -/
def hepJob (j : HepJob) (upd : LStdHep → Except Err (HepUpdate × LStdHep)) (inFile : Str) (input : List Byte) (outExists : Bool) (maxEvt : Int) (fuel : Nat) :
    Except Err (Nat × Option (List Byte)) := do
  let s ← hepOpen input
  if outExists then throw .ioException
  let w ← Writer.openNew {}
  match w.writeRunHeader j.codec true j.runBuf (hepRunHeader inFile) with
  | (.error e, _) => throw e
  | (.ok (), w) =>
    let (count, w) ← hepJobLoop j upd maxEvt fuel 0 s w
    let (_, file) ← w.close
    return (count, file)

/-- `stdhepjob`, with `LCStdHepRdr`. The first bound is for the reading of one event, the second for the number of events. -/
def stdhepjob (j : HepJob) (overLight : W64 → W64) (inFile : Str) (input : List Byte) (outExists : Bool) (maxEvt : Int) (fuel rounds : Nat) :
    Except Err (Nat × Option (List Byte)) :=
  hepJob j (hepUpdateNext (hepArithOf j.std overLight) fuel) inFile input outExists maxEvt rounds

/-- `stdhepjob_new`, with `LCStdHepRdrNew`, which is not asked to write event numbers. -/
def stdhepjobNew (j : HepJob) (overLight : W64 → W64) (inFile : Str) (input : List Byte) (outExists : Bool) (maxEvt : Int) (fuel rounds : Nat) :
    Except Err (Nat × Option (List Byte)) :=
  hepJob j (fun s => (hepUpdateNextNew (hepArithOf j.std overLight) fuel false s).map fun r => ((r.1.1, r.1.2.1, r.1.2.2.1), r.2))
    inFile input outExists maxEvt rounds

end Util
