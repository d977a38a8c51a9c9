import Verif.Util.Xdr
import Verif.Lcio.Build
/-
Reading StdHep files: src/cpp/src/UTIL/lStdHep.cc on top of the XDR files, and src/cpp/src/UTIL/LCStdHepRdr.cc, which makes collections of MCParticles of
them. A null pointer is `none`. Members that only printing functions use are left out, and so is what is written to the terminal.
-/
namespace Util
open Sio

/-- `LSH_BLOCKERROR` to `LSH_ENDOFFILE`, src/cpp/include/UTIL/lStdHep.hh:47-53, and `LXDR_SEEKERROR`, lXDR.hh:140. -/
def lshBlockError : Nat := 101
def lshNoEventTable : Nat := 102
def lshNoEvent : Nat := 103
def lshNotSupported : Nat := 104
def lshEvTableCorrupt : Nat := 105
def lshEndOfFile : Nat := 106
def lxSeekError : Nat := 7

/-- Functions that read from the file. -/
abbrev Rd := StateT LXdr (Except Err)

/-- The member functions of `lXDR` (Util/Xdr.lean) in that form. -/
def rdLong : Rd Int := fun x => .ok x.readLong
def rdDouble : Rd W64 := fun x => .ok x.readDouble
def rdFloat : Rd W32 := fun x => .ok x.readFloat
def rdString : Rd (Option (List Byte) × Int) := fun x => let r := x.readString; .ok ((r.1, r.2.1), r.2.2)
def rdLongs : Rd (Option (List Int) × Int) := fun x => (x.readLongArray).map fun r => ((r.1, r.2.1), r.2.2)
def rdDoubles : Rd (Option (List W64) × Int) := fun x => (x.readDoubleArray).map fun r => ((r.1, r.2.1), r.2.2)

/-- `lXDR::setError`, lXDR.hh:110. -/
def rdSetError (e : Nat) : Rd Unit := fun x => .ok ((), { x with err := e })

/-- An exception or undefined behaviour. -/
def rdFail {α : Type} (e : Err) : Rd α := fun _ => .error e

/-- `lXDR::filePosition( pos )`, lXDR.cc:339-351: with -1 it tells the position, with other negative positions `fseek` fails. -/
def LXdr.filePosition (x : LXdr) (pos : Int) : Int × LXdr :=
  if !x.isOpen then (-1, { x with err := lxNoFile })
  else if pos = -1 then (x.pos, x)
  else if pos < 0 then (-1, { x with err := lxSeekError })
  else (pos, { x with pos := pos.toNat })

/-- The characters before the terminating zero of a string that was read. -/
def cString (s : List Byte) : List Byte := s.takeWhile (· ≠ 0)

/-- `*version` of a string that was read: its first character, or the terminating zero. -/
def firstChar (s : List Byte) : Byte := s.headD 0

/-- `lStdHep::EventTable`, lStdHep.hh:296-331 (`isEmpty` is `numEvts <= 0` whenever it is used). -/
structure LTable where
  ievt : Nat := 0
  nextlocator : Int := -3
  numEvts : Int := 0
  ptrEvents : Option (List Int) := none
  deriving DecidableEq

/-- `lStdHep::Event`, lStdHep.hh:336-412, without the numbers in begin run and end run records and those of ntuples. -/
structure LEvent where
  isEmpty : Bool := false
  runnum : Int := 0
  version : Option (List Byte) := none
  blockIds : Option (List Int) := none
  nevhep : Int := 0
  nhep : Int := 0
  isthep : Option (List Int) := none
  idhep : Option (List Int) := none
  jmohep : Option (List Int) := none
  jdahep : Option (List Int) := none
  phep : Option (List W64) := none
  vhep : Option (List W64) := none
  eventweight : W64 := 0
  alphaqed : W64 := 0
  alphaqcd : W64 := 0
  scale : Option (List W64) := none
  spin : Option (List W64) := none
  colorflow : Option (List Int) := none
  idrup : Int := 0
  deriving DecidableEq

/-- `EventTable::cleanup`, lStdHep.cc:310-321: `nextlocator` is left alone. -/
def LTable.cleanup (t : LTable) : LTable := { nextlocator := t.nextlocator }

/-- `EventTable::read`, lStdHep.cc:323-346. The arrays `evtnums`, `storenums`, `runnums` and `trigMasks` are only printed. -/
def LTable.read (t : LTable) : Rd LTable := do
  let t := t.cleanup
  let blockid ← rdLong
  let _ ← rdLong
  let _ ← rdString
  if blockid ≠ 2 then
    rdSetError lshNoEventTable
    pure t
  else
    let nextlocator ← rdLong
    let numEvts ← rdLong
    let _ ← rdLongs
    let _ ← rdLongs
    let _ ← rdLongs
    let _ ← rdLongs
    let ptr ← rdLongs
    pure { t with nextlocator, numEvts, ptrEvents := ptr.1 }

/-- `Event::cleanup`, lStdHep.cc:385-402: not all members are reset. -/
def LEvent.cleanup (e : LEvent) : LEvent :=
  { e with version := none, blockIds := none, isthep := none, idhep := none, jmohep := none, jdahep := none, phep := none, vhep := none,
           scale := none, spin := none, colorflow := none, nevhep := 0, nhep := 0, isEmpty := true }

/-- What a block 101 and the first part of a block 201 have in common, lStdHep.cc:455-469 and 471-485. -/
def LEvent.readStdHep (e : LEvent) : Rd LEvent := do
  let nevhep ← rdLong
  let nhep ← rdLong
  let isthep ← rdLongs
  let idhep ← rdLongs
  let jmohep ← rdLongs
  let jdahep ← rdLongs
  let phep ← rdDoubles
  let vhep ← rdDoubles
  pure { e with nevhep, nhep, isthep := isthep.1, idhep := idhep.1, jmohep := jmohep.1, jdahep := jdahep.1, phep := phep.1, vhep := vhep.1 }

/-- The rest of a block 201, lStdHep.cc:489-499. -/
def LEvent.readEv4 (e : LEvent) : Rd LEvent := do
  let eventweight ← rdDouble
  let alphaqed ← rdDouble
  let alphaqcd ← rdDouble
  let scale ← rdDoubles
  let spin ← rdDoubles
  let colorflow ← rdLongs
  let idrup ← rdLong
  pure { e with eventweight, alphaqed, alphaqcd, scale := scale.1, spin := spin.1, colorflow := colorflow.1, idrup }

/-- A begin run or end run record, lStdHep.cc:506-525. -/
def LEvent.readRun (e : LEvent) : Rd LEvent := do
  let _ ← rdLong
  let _ ← rdLong
  let _ ← rdLong
  let _ ← rdFloat
  let _ ← rdFloat
  let _ ← rdDouble
  let _ ← rdDouble
  pure { e with isEmpty := true }

/-- The `switch` in `Event::read`, lStdHep.cc:454-528. -/
def LEvent.readBlock (e : LEvent) (id : Int) : Rd LEvent := do
  if id = 101 then e.readStdHep
  else if id = 201 then
    let e ← e.readStdHep
    e.readEv4
  else if id = 106 ∨ id = 107 then e.readRun
  else pure e

/-- The loop over the blocks in `Event::read`, lStdHep.cc:446-529: `n` more blocks, of which the first is number `i`. `blockIds[i]` behind the end of the
array or of no array at all is undefined behaviour. -/
def LEvent.readBlocks : Nat → Nat → LEvent → Rd LEvent
  | 0, _, e => pure e
  | n + 1, i, e => do
    let _ ← rdLong
    let _ ← rdLong
    let version ← rdString
    let e := { e with version := version.1, isEmpty := false }
    match e.blockIds.bind (·[i]?) with
    | none => rdFail .ub
    | some id =>
      let e ← e.readBlock id
      LEvent.readBlocks n (i + 1) e

/-- `Event::read`, lStdHep.cc:404-531. Dereferencing the null pointer that is returned for a string that cannot be read is undefined behaviour. -/
def LEvent.read (e : LEvent) : Rd LEvent := do
  let e := e.cleanup
  let blockid ← rdLong
  let _ ← rdLong
  let version ← rdString
  if blockid ≠ 4 then rdSetError lshNoEvent
  let _ ← rdLong
  let _ ← rdLong
  let runnum ← rdLong
  let _ ← rdLong
  let nBlocks ← rdLong
  let dimBlocks ← rdLong
  let e := { e with runnum, version := version.1 }
  match version.1 with
  | none => rdFail .ub
  | some v =>
    if firstChar v = 50 then
      let _ ← rdLong
      let dimNTuples ← rdLong
      let e ← (if dimBlocks ≠ 0 then do
          let ids ← rdLongs
          let _ ← rdLongs
          pure { e with blockIds := ids.1 }
        else pure e : Rd LEvent)
      if dimNTuples ≠ 0 then
        rdSetError lshNotSupported
        pure e
      else LEvent.readBlocks nBlocks.toNat 0 e
    else
      let ids ← rdLongs
      let _ ← rdLongs
      LEvent.readBlocks nBlocks.toNat 0 { e with blockIds := ids.1 }

/-- `lStdHep`, lStdHep.hh:281-294 and 333, 413. -/
structure LStdHep where
  x : LXdr
  numevtsExpect : Int := 0
  numevts : Int := 0
  table : LTable := {}
  event : LEvent := {}
  deriving DecidableEq

/-- Read `n` strings. -/
def rdStrings : Nat → Rd Unit
  | 0 => pure ()
  | n + 1 => do
    let _ ← rdString
    rdStrings n

/-- `lStdHep::readFileHeader`, lStdHep.cc:210-253. The result is `numevts_expect`, `numevts` and the first event table. The lengths behind the strings:
`readLongArray( nBlocks )` overwrites `nBlocks` if there is anything to read. `new` throws for negative numbers; `strcmp`, `strcpy` and `*` on a null pointer
and `strcpy` into an array that is too short are undefined. -/
def rdFileHeader : Rd (Int × Int × LTable) := do
  let t : LTable := {}
  let blockid ← rdLong
  if blockid ≠ 1 then
    rdSetError lshBlockError
    pure (0, 0, t)
  else
    let _ ← rdLong
    let version ← rdString
    let _ ← rdString
    let _ ← rdString
    let date ← rdString
    match version.1 with
    | none => rdFail .ub
    | some v =>
      if cString v = [50, 46, 48, 48] ∨ cString v = [49, 46, 48, 48] then
        if date.2 + 1 < 0 then rdFail .lengthError
        else match date.1 with
          | none => rdFail .ub
          | some d => if date.2 < (cString d).length then rdFail .ub else pure ()
      else
        let _ ← rdString
        pure ()
      let expect ← rdLong
      let numevts ← rdLong
      let _ ← rdLong
      let _ ← rdLong
      let nBlocks ← rdLong
      let nNTuples ← (if firstChar v = 50 then rdLong else pure 0 : Rd Int)
      let ids ← rdLongs
      let nBlocks := if ids.1 = none ∧ ids.2 = 0 then nBlocks else ids.2
      if nBlocks < 0 then rdFail .lengthError
      else
        rdStrings nBlocks.toNat
        if nNTuples > 0 then rdSetError lshNotSupported
        let t ← t.read
        pure (expect, numevts, t)

/-- `lStdHep::lStdHep( filename )` for a file that can be opened, lStdHep.cc:30-42. -/
def LStdHep.create (file : List Byte) : Except Err LStdHep :=
  match rdFileHeader { file } with
  | .error e => .error e
  | .ok ((expect, n, t), x) => .ok { x, numevtsExpect := expect, numevts := n, table := t }

/-- The loops of `lStdHep::readEvent()`, lStdHep.cc:131-167. The first argument bounds the number of events and event tables that are read; if that is not
enough, the result is `diverge`. The inner loop, which goes on while tables are empty, is joined with the outer one, which does the same: it goes
to the next table if there is no event left in this one. -/
def LStdHep.readLoop : Nat → LStdHep → Except Err LStdHep
  | 0, _ => .error .diverge
  | n + 1, s =>
    if (s.table.ievt : Int) < s.table.numEvts then
      match s.table.ptrEvents.bind (·[s.table.ievt]?) with
      | none => .error .ub
      | some ptr =>
        let (r, x) := s.x.filePosition ptr
        if r ≠ ptr then .ok { s with x }
        else match s.event.read x with
          | .error e => .error e
          | .ok (ev, x) =>
            let s := { s with x, event := ev }
            if x.err ≠ 0 then .ok s
            else
              let s := { s with table.ievt := s.table.ievt + 1 }
              if ev.isEmpty then s.readLoop n else .ok s
    else if s.table.nextlocator = -2 then .ok { s with x.err := lshEndOfFile }
    else if s.table.nextlocator = -1 then .ok { s with x.err := lshEvTableCorrupt }
    else
      let (r, x) := s.x.filePosition s.table.nextlocator
      if r ≠ s.table.nextlocator then .ok { s with x }
      else match s.table.read x with
        | .error e => .error e
        | .ok (t, x) =>
          let s := { s with x, table := t }
          if x.err ≠ 0 then .ok s else s.readLoop n

/-- `lStdHep::readEvent()`, lStdHep.cc:131-167: the error is then that of the file. -/
def LStdHep.readEvent (fuel : Nat) (s : LStdHep) : Except Err LStdHep :=
  LStdHep.readLoop fuel { s with event.isEmpty := true }

/-- Elements of arrays, as in the functions for direct access, lStdHep.hh:195-222: no array or an index behind its end is undefined behaviour. -/
def element {α : Type} (a : Option (List α)) (i : Nat) : Except Err α :=
  match a.bind (·[i]?) with
  | none => .error .ub
  | some v => .ok v

/-- `lStdTrack`, lStdHep.hh:76-92. -/
structure LTrack where
  x : W64
  y : W64
  z : W64
  t : W64
  px : W64
  py : W64
  pz : W64
  e : W64
  m : W64
  pid : Int
  status : Int
  mother1 : Int
  mother2 : Int
  daughter1 : Int
  daughter2 : Int
  deriving DecidableEq

/-- One track, as in `lStdHep::getEvent`, lStdHep.cc:177-192, by the functions in lStdHep.hh:200-214. -/
def LEvent.track (ev : LEvent) (i : Nat) : Except Err LTrack := do
  let x ← element ev.vhep (i * 4 + 0)
  let y ← element ev.vhep (i * 4 + 1)
  let z ← element ev.vhep (i * 4 + 2)
  let t ← element ev.vhep (i * 4 + 3)
  let px ← element ev.phep (i * 5 + 0)
  let py ← element ev.phep (i * 5 + 1)
  let pz ← element ev.phep (i * 5 + 2)
  let e ← element ev.phep (i * 5 + 3)
  let m ← element ev.phep (i * 5 + 4)
  let pid ← element ev.idhep i
  let status ← element ev.isthep i
  let mother1 ← element ev.jmohep (i + i + 0)
  let mother2 ← element ev.jmohep (i + i + 1)
  let daughter1 ← element ev.jdahep (i + i + 0)
  let daughter2 ← element ev.jdahep (i + i + 1)
  pure { x, y, z, t, px, py, pz, e, m, pid, status, mother1, mother2, daughter1, daughter2 }

/-- `lStdHep::getEvent`, lStdHep.cc:169-196: the code, which is 1 after any error, and the event (`evtNum` and the tracks). -/
def LStdHep.getEvent (s : LStdHep) : Except Err (Nat × Option (Int × List LTrack)) :=
  if s.x.err ≠ 0 then .ok (1, none)
  else do
    let ts ← (List.range s.event.nhep.toNat).mapM s.event.track
    pure (0, some (s.event.nevhep, ts))

/-- `lStdHep::readEvent( lse )`, lStdHep.cc:205-210: the code, the event if there is one, and the reader. -/
def LStdHep.readEventInto (fuel : Nat) (s : LStdHep) : Except Err ((Nat × Option (Int × List LTrack)) × LStdHep) :=
  match s.readEvent fuel with
  | .error e => .error e
  | .ok s => if s.x.err ≠ 0 then .ok ((s.x.err, none), s) else s.getEvent.map fun r => (r, s)

/-! ## LCStdHepRdr -/

/-- What an MCParticle gets, LCStdHepRdr.cc:163-217. `charge3` is the charge in units of a third of the positron's. -/
structure HepParticle where
  pdg : Int
  charge3 : Int
  momentum : List W64
  mass : W64
  vertex : List W64
  genStatus : Int
  time : W32
  spin : List W32 := [0, 0, 0]
  colorFlow : List Int := [0, 0]
  deriving DecidableEq

/-- `ch100`, LCStdHepRdr.cc:508-517. -/
def ch100 : List Int :=
  [-1, 2, -1, 2, -1, 2, -1, 2, 0, 0,
   -3, 0, -3, 0, -3, 0, -3, 0, 0, 0,
   0, 0, 0, 3, 0, 0, 0, 0, 0, 0,
   0, 0, 0, 3, 0, 0, 3, 0, 0, 0,
   0, -1, 0, 0, 0, 0, 0, 0, 0, 0,
   0, 6, 3, 6, 0, 0, 0, 0, 0, 0,
   0, 0, 0, 0, 0, 0, 0, 0, 0, 0,
   0, 0, 0, 0, 0, 0, 0, 0, 0, 0,
   0, 0, 0, 0, 0, 0, 0, 0, 0, 0,
   0, 0, 0, 0, 0, 0, 0, 0, 0, 0]

/-- `ch100[ i - 1 ]`: undefined behaviour for `i = 0`. -/
def ch100At (i : Nat) : Except Err Int :=
  if i = 0 then .error .ub
  else match ch100[i - 1]? with
    | none => .error .ub
    | some c => .ok c

/-- `LCStdHepRdr::threeCharge`, LCStdHepRdr.cc:519-577: the charge before the sign of the code is taken into account, for its absolute value `ida`.
`(int) std::pow( 10.0 , n )` is taken to be the power of ten. -/
def chargeOf (ida : Nat) : Except Err Int :=
  let q1 := ida / 1000 % 10
  let q2 := ida / 100 % 10
  let q3 := ida / 10 % 10
  let dig_n9 := ida / 100000000 % 10
  let dig_n10 := ida / 1000000000 % 10
  let sid := if dig_n10 = 1 ∧ dig_n9 = 0 then 0 else if q2 = 0 ∧ q1 = 0 then ida % 10000 else if ida ≤ 102 then ida else 0
  let extraBits := ida / 10000000
  let dig_nj := ida % 10
  if ida = 0 ∨ extraBits > 0 then .ok 0
  else if sid > 0 ∧ sid ≤ 100 then
    (ch100At sid).map fun charge =>
      let charge := if ida = 1000017 ∨ ida = 1000018 then 0 else charge
      let charge := if ida = 1000034 ∨ ida = 1000052 then 0 else charge
      let charge := if ida = 1000053 ∨ ida = 1000054 then 0 else charge
      if ida = 5100061 ∨ ida = 5100062 then 6 else charge
  else if dig_nj = 0 then .ok 0
  else if q1 = 0 then
    if q2 = 3 ∨ q2 = 5 then do
      let a ← ch100At q3
      let b ← ch100At q2
      pure (a - b)
    else do
      let a ← ch100At q2
      let b ← ch100At q3
      pure (a - b)
  else if q3 = 0 then do
    let a ← ch100At q2
    let b ← ch100At q1
    pure (a + b)
  else do
    let a ← ch100At q3
    let b ← ch100At q2
    let c ← ch100At q1
    pure (a + b + c)

/-- `LCStdHepRdr::threeCharge( pdgID )`, LCStdHepRdr.cc:495-582, with lines 578-580. The negation of the smallest `int` is undefined. -/
def threeCharge (pdgID : Int) : Except Err Int :=
  if pdgID = -2 ^ 31 then .error .ub
  else (chargeOf pdgID.natAbs).map fun charge => if charge = 0 then 0 else if pdgID < 0 then -charge else charge

/-- The arithmetic of the machine that is used: conversion to `float` and back, and division of a `double` by 299.792. -/
structure HepArith where
  narrow : W64 → W32
  widen : W32 → W64
  overLight : W64 → W64

/-- The first loop of `LCStdHepRdr::readEvent`, LCStdHepRdr.cc:157-217: one particle. -/
def hepParticle (ar : HepArith) (ev : LEvent) (i : Nat) : Except Err HepParticle := do
  let pdg ← element ev.idhep i
  let charge3 ← threeCharge pdg
  let px ← element ev.phep (i * 5 + 0)
  let py ← element ev.phep (i * 5 + 1)
  let pz ← element ev.phep (i * 5 + 2)
  let m ← element ev.phep (i * 5 + 4)
  let x ← element ev.vhep (i * 4 + 0)
  let y ← element ev.vhep (i * 4 + 1)
  let z ← element ev.vhep (i * 4 + 2)
  let status ← element ev.isthep i
  let t ← element ev.vhep (i * 4 + 3)
  let p : HepParticle := { pdg, charge3, momentum := [px, py, pz].map fun c => ar.widen (ar.narrow c), mass := ar.widen (ar.narrow m),
                           vertex := [x, y, z], genStatus := status, time := ar.narrow (ar.overLight t) }
  if ev.scale.isSome then
    let sx ← element ev.spin (i * 3 + 0)
    let sy ← element ev.spin (i * 3 + 1)
    let sz ← element ev.spin (i * 3 + 2)
    let c0 ← element ev.colorflow (i * 2 + 0)
    let c1 ← element ev.colorflow (i * 2 + 1)
    pure { p with spin := [sx, sy, sz].map ar.narrow, colorFlow := [c0, c1] }
  else pure p

/-- A particle is made the parent of the daughter with index `d` unless it is already, LCStdHepRdr.cc:317-334 and so on. The particles are at the addresses
0, 1, ... of the memory `h`; `getElementAt` behind the end of the collection is undefined behaviour (`operator[]`, LCCollectionVec.cc:60-62). -/
def hepLink (n : Nat) (mcp : Nat) (h : Lcio.PHeap) (d : Int) : Except Err Lcio.PHeap :=
  if d < 0 ∨ n ≤ d.toNat then .error .ub
  else match h d.toNat with
    | none => .error .ub
    | some node => if node.parents.contains mcp then .ok h else .ok (Lcio.addParent h d.toNat mcp).2

/-- The second loop, LCStdHepRdr.cc:282-418, for one particle with its daughter numbers. -/
def hepDaughters (n : Nat) (mcp : Nat) (h : Lcio.PHeap) (daughter1 daughter2 : Int) : Except Err Lcio.PHeap :=
  let fd := daughter1.tmod 10000 - 1
  let ld := daughter2.tmod 10000 - 1
  if fd > -1 ∧ ld > -1 then
    if ld ≥ fd then (List.range (ld - fd + 1).toNat).foldlM (fun h k => hepLink n mcp h (fd + (k : Nat))) h
    else do
      let h ← hepLink n mcp h fd
      hepLink n mcp h ld
  else if fd > -1 then
    if fd < n then hepLink n mcp h fd else .ok h
  else .ok h

/-- The inner loop of the third one, LCStdHepRdr.cc:452-470: the particles `next`, ... below `i`. -/
def hepRepairFrom (statuses : List Int) (i : Nat) (outn : Nat) : List Nat → Lcio.PHeap × Int → Except Err (Lcio.PHeap × Int)
  | [], s => .ok s
  | next :: l, (h, nic) =>
    match h next, h i, statuses[next]? with
    | some parent, some mcp, some status =>
      if status = 2 ∧ parent.daughters.length = 0 ∧ mcp.parents.length < outn then
        hepRepairFrom statuses i outn l ((Lcio.addParent h i next).2, nic - 1)
      else hepRepairFrom statuses i outn l (h, nic)
    | _, _, _ => .error .ub

/-- The third loop, LCStdHepRdr.cc:425-473, for particle `i`. `nextparentid` is unsigned and the loop goes on until it equals `i`: if it starts below 0 or
above `i` it reads behind the end of the collection. -/
def hepRepair (pdgs statuses : List Int) (i : Nat) (mother1 daughter1 daughter2 : Int) (s : Lcio.PHeap × Int) : Except Err (Lcio.PHeap × Int) :=
  match s.1 i, pdgs[i]?, statuses[i]? with
  | some mcp, some pdg, some status =>
    let nic := if status = 2 ∧ mcp.daughters.length = 0 then s.2 + 1 else s.2
    if nic > 0 ∧ pdg = 94 then
      let parentid := mother1.tmod 10000 - 1
      let firstdau := daughter1.tmod 10000 - 1
      let lastdau := daughter2.tmod 10000 - 1
      let outn := (lastdau - firstdau + 1).toNat
      if parentid < 0 ∨ (i : Int) < parentid then .error .ub
      else hepRepairFrom statuses i outn (List.range' parentid.toNat (i - parentid.toNat)) (s.1, nic)
    else .ok (s.1, nic)
  | _, _, _ => .error .ub

/-- A collection made by `LCStdHepRdr::readEvent`: its particles with their parents and daughters (by index), and its parameters `_idrup`, if it has
it, and `_weight`. -/
structure HepCollection where
  particles : List HepParticle
  relatives : List Lcio.PNode
  idrup : Option Int
  weight : W32
  deriving DecidableEq

/-- `LCStdHepRdr::readEvent`, LCStdHepRdr.cc:117-484, behind the reading: the collection made of the current event. -/
def hepCollection (ar : HepArith) (ev : LEvent) : Except Err HepCollection := do
  let n := ev.nhep.toNat
  if ev.nhep < 0 then .error .lengthError
  else
    let ps ← (List.range n).mapM (hepParticle ar ev)
    let h ← (List.range n).foldlM (fun (h : Lcio.PHeap) i => do
      let d1 ← element ev.jdahep (i + i + 0)
      let d2 ← element ev.jdahep (i + i + 1)
      hepDaughters n i h d1 d2) (fun a => if a < n then some {} else none)
    let r ← (List.range n).foldlM (fun (s : Lcio.PHeap × Int) i => do
      let m1 ← element ev.jmohep (i + i + 0)
      let d1 ← element ev.jdahep (i + i + 0)
      let d2 ← element ev.jdahep (i + i + 1)
      hepRepair (ps.map (·.pdg)) (ps.map (·.genStatus)) i m1 d1 d2 s) (h, 0)
    pure { particles := ps, relatives := (List.range n).map fun i => (r.1 i).getD {}, idrup := if ev.idrup ≠ 0 then some ev.idrup else none,
           weight := ar.narrow ev.eventweight }

/-- `LCStdHepRdr::LCStdHepRdr( evfile )`, LCStdHepRdr.cc:21-33. -/
def hepOpen (file : List Byte) : Except Err LStdHep :=
  match LStdHep.create file with
  | .error e => .error e
  | .ok s => if s.x.err ≠ 0 then .error .ioException else .ok s

/-- `LCStdHepRdr::readEvent`, LCStdHepRdr.cc:84-484: no collection at the end of the file. -/
def hepReadEvent (ar : HepArith) (fuel : Nat) (s : LStdHep) : Except Err (Option HepCollection × LStdHep) :=
  match s.readEvent fuel with
  | .error e => .error e
  | .ok s =>
    if s.x.err ≠ 0 then if s.x.err ≠ lshEndOfFile then .error .ioException else .ok (none, s)
    else match hepCollection ar s.event with
      | .error e => .error e
      | .ok c => .ok (some c, s)

/-- `LCStdHepRdr::updateNextEvent`, LCStdHepRdr.cc:52-81, for an event without these parameters: the parameters `_idrup` and `_weight` the event gets, and the
collection that is added to it. -/
def hepUpdateNext (ar : HepArith) (fuel : Nat) (s : LStdHep) : Except Err ((Int × W32 × HepCollection) × LStdHep) :=
  match hepReadEvent ar fuel s with
  | .error e => .error e
  | .ok (none, _) => .error .endOfData
  | .ok (some c, s) => .ok ((c.idrup.getD 0, ar.narrow (ar.widen c.weight), c), s)

end Util
