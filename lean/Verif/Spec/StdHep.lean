import Verif.Spec.Xdr
import Verif.Util.StdHep
/-
StdHep files: what is in them, and where. A file starts with a header and the first table of events; tables point to their events and to the next table.
-/
namespace Spec
open Sio Util

/-- Things in an XDR file. -/
inductive XdrItem where
  | long (n : Int)
  | double (d : W64)
  | float (f : W32)
  | string (s : List Byte)
  | longs (l : List Int)
  | doubles (l : List W64)

def XdrItem.bytes : XdrItem → List Byte
  | .long n => xdrLong n
  | .double d => xdrDouble d
  | .float f => bigEndian 4 f.toNat
  | .string s => xdrString s
  | .longs l => xdrArray xdrLong l
  | .doubles l => xdrArray xdrDouble l

/-- Integers fit into 32 bits, lengths as well. -/
def XdrItem.Ok : XdrItem → Prop
  | .long n => IsInt32 n
  | .string s => s.length < 2 ^ 31
  | .longs l => l.length < 2 ^ 31 ∧ ∀ n ∈ l, IsInt32 n
  | .doubles l => l.length < 2 ^ 31
  | _ => True

/-- At a position of the file there are these things. -/
def StoredAt (file : List Byte) (pos : Nat) (items : List XdrItem) : Prop :=
  (∀ it ∈ items, it.Ok) ∧ ∃ pre rest, file = pre ++ (items.flatMap XdrItem.bytes ++ rest) ∧ pre.length = pos

/-- What events in the newer format have in addition. -/
structure Ev4 where
  weight : W64
  alphaQed : W64
  alphaQcd : W64
  scales : List W64
  spins : List (W64 × W64 × W64)
  colors : List (Int × Int)
  process : Int

/-- An event: its number and its particles. -/
structure HepEvent where
  number : Int
  tracks : List LTrack
  ev4 : Option Ev4 := none

/-- A begin run or end run record. -/
structure HepRun where
  isEnd : Bool
  requested : Int
  generated : Int
  written : Int
  energy : W32
  crossSection : W32
  seed1 : W64
  seed2 : W64

/-- The particles of an event: 101. -/
def HepEvent.items (e : HepEvent) : List XdrItem :=
  [.long e.number, .long e.tracks.length, .longs (e.tracks.map (·.status)), .longs (e.tracks.map (·.pid)),
   .longs (e.tracks.flatMap fun t => [t.mother1, t.mother2]), .longs (e.tracks.flatMap fun t => [t.daughter1, t.daughter2]),
   .doubles (e.tracks.flatMap fun t => [t.px, t.py, t.pz, t.e, t.m]), .doubles (e.tracks.flatMap fun t => [t.x, t.y, t.z, t.t])] ++
  match e.ev4 with
  | none => []
  | some v => [.double v.weight, .double v.alphaQed, .double v.alphaQcd, .doubles v.scales, .doubles (v.spins.flatMap fun s => [s.1, s.2.1, s.2.2]),
      .longs (v.colors.flatMap fun c => [c.1, c.2]), .long v.process]

def HepEvent.code (e : HepEvent) : Int := if e.ev4.isSome then 201 else 101

def HepRun.items (r : HepRun) : List XdrItem :=
  [.long r.requested, .long r.generated, .long r.written, .float r.energy, .float r.crossSection, .double r.seed1, .double r.seed2]

def HepRun.code (r : HepRun) : Int := if r.isEnd then 107 else 106

/-- A record: any begin run and end run records, and after them possibly an event. Blocks start with a code, a length and a version.
`spare` are block codes that are listed but not used (the lists may be longer than the number of blocks). -/
structure HepRecord where
  length : Int := 0
  version : List Byte
  number : Int := 0
  store : Int := 0
  run : Int := 0
  trigger : Int := 0
  blockLength : Int := 0
  blockVersion : List Byte := []
  pointers : List Int := []
  spare : List Int := []
  runs : List HepRun := []
  event : Option HepEvent := none

/-- Blocks of a record with their codes. -/
def HepRecord.blocks (r : HepRecord) : List (Int × List XdrItem) := r.runs.map (fun b => (b.code, b.items)) ++ (r.event.map fun e => (e.code, e.items)).toList

/-- All codes listed in the record. -/
def HepRecord.codes (r : HepRecord) : List Int := r.blocks.map (·.1) ++ r.spare

def HepRecord.items (r : HepRecord) : List XdrItem :=
  [.long 4, .long r.length, .string r.version, .long r.number, .long r.store, .long r.run, .long r.trigger, .long r.blocks.length,
   .long r.codes.length] ++
  (if r.version.head? = some 50 then
     [.long 0, .long 0] ++ if r.codes = [] then [] else [.longs r.codes, .longs r.pointers]
   else [.longs r.codes, .longs r.pointers]) ++
  r.blocks.flatMap fun b => [.long b.1, .long r.blockLength, .string r.blockVersion] ++ b.2

/-- A table of events: where the next table is (-2: there is none), the records with their positions. The lists may be longer than the number of
events. -/
structure HepTable where
  length : Int := 0
  version : List Byte := []
  next : Int
  entries : List (Nat × HepRecord)
  numbers : List Int := []
  stores : List Int := []
  runs : List Int := []
  triggers : List Int := []
  spare : List Int := []

def HepTable.items (t : HepTable) : List XdrItem :=
  [.long 2, .long t.length, .string t.version, .long t.next, .long t.entries.length, .longs t.numbers, .longs t.stores, .longs t.runs, .longs t.triggers,
   .longs (t.entries.map (fun e => (e.1 : Int)) ++ t.spare)]

/-- The events of an event table are where it says. -/
def HepTable.Points (t : HepTable) (file : List Byte) : Prop := ∀ e ∈ t.entries, StoredAt file e.1 e.2.items

/-- Tables that follow each other, from a position on. -/
inductive HepTables (file : List Byte) : Int → List HepTable → Prop where
  | nil : HepTables file (-2) []
  | cons (pos : Nat) (t : HepTable) (ts : List HepTable) (stored : StoredAt file pos t.items) (points : t.Points file) (more : HepTables file t.next ts) :
      HepTables file pos (t :: ts)

/-- The header of a file. -/
structure HepHeader where
  length : Int := 0
  version : List Byte
  title : List Byte := []
  comment : List Byte := []
  date : List Byte := []
  closingDate : List Byte := []
  expected : Int := 0
  events : Int := 0
  firstTable : Int := 0
  dimTable : Int := 0
  nBlocks : Int := 0
  blocks : List (Int × List Byte) := []

/-- Files of the versions 1.00 and 2.00 have no closing date; files of version 2 tell the number of ntuples, which have to be none here. -/
def HepHeader.items (h : HepHeader) : List XdrItem :=
  [.long 1, .long h.length, .string h.version, .string h.title, .string h.comment, .string h.date] ++
  (if h.version = str "2.00" ∨ h.version = str "1.00" then [] else [.string h.closingDate]) ++
  [.long h.expected, .long h.events, .long h.firstTable, .long h.dimTable, .long h.nBlocks] ++
  (if h.version.head? = some 50 then [.long 0] else []) ++
  [.longs (h.blocks.map (·.1))] ++ h.blocks.map (fun b => .string b.2)

structure HepFile where
  header : HepHeader
  first : HepTable
  more : List HepTable := []

/-- The bytes are those of such a file. -/
structure HepFile.In (f : HepFile) (file : List Byte) : Prop where
  version : 0 ∉ f.header.version
  start : StoredAt file 0 (f.header.items ++ f.first.items)
  points : f.first.Points file
  tables : HepTables file f.first.next f.more

/-- The records in the order of the tables. -/
def HepFile.records (f : HepFile) : List HepRecord := (f.first :: f.more).flatMap fun t => t.entries.map (·.2)

/-- The events among records, with the numbers of their runs. -/
def eventsOf (rs : List HepRecord) : List (Int × HepEvent) := rs.filterMap fun r => r.event.map fun e => (r.run, e)

def HepFile.events (f : HepFile) : List (Int × HepEvent) := eventsOf f.records

/-- Number of records and tables. -/
def HepFile.size (f : HepFile) : Nat := f.records.length + f.more.length

/-- The particles that an entry with two numbers lists as daughters: a range, two particles, or one; numbers start with one. -/
def listed (t : LTrack) : List Nat :=
  if 0 < t.daughter1 ∧ 0 < t.daughter2 then
    if t.daughter1 ≤ t.daughter2 then List.range' (t.daughter1 - 1).toNat (t.daughter2 - t.daughter1 + 1).toNat
    else [(t.daughter1 - 1).toNat, (t.daughter2 - 1).toNat]
  else if 0 < t.daughter1 then [(t.daughter1 - 1).toNat]
  else []

/-- The last four digits of numbers of particles: what is above them is taken for other information. -/
def fourDigits (t : LTrack) : LTrack :=
  { t with mother1 := t.mother1.tmod 10000, daughter1 := t.daughter1.tmod 10000, daughter2 := t.daughter2.tmod 10000 }

def HepEvent.reduced (e : HepEvent) : HepEvent := { e with tracks := e.tracks.map fourDigits }

/-- The event can be converted: charges are defined; daughters are particles of the event, with numbers of at most four digits; entries 94 have a
mother that is not behind them; spins and colors are given for all particles, if any. -/
structure Usable (e : HepEvent) : Prop where
  charges : ∀ t ∈ e.tracks, ∃ c, threeCharge t.pid = .ok c
  daughters : ∀ t ∈ e.tracks, -10000 < t.daughter1 ∧ t.daughter1 ≤ e.tracks.length ∧ t.daughter1 < 10000 ∧
    -10000 < t.daughter2 ∧ t.daughter2 ≤ e.tracks.length ∧ t.daughter2 < 10000
  mothers : ∀ (i : Nat) t, e.tracks[i]? = some t → t.pid = 94 → 0 < t.mother1 ∧ t.mother1 ≤ i + 1 ∧ t.mother1 < 10000
  spins : ∀ v, e.ev4 = some v → v.spins.length = e.tracks.length ∧ v.colors.length = e.tracks.length

/-- The attributes of a particle made of an entry: numbers that LCIO stores as `float` are converted. -/
structure SameParticle (ar : HepArith) (t : LTrack) (p : HepParticle) : Prop where
  pdg : p.pdg = t.pid
  charge : threeCharge t.pid = .ok p.charge3
  momentum : p.momentum = [t.px, t.py, t.pz].map fun c => ar.widen (ar.narrow c)
  mass : p.mass = ar.widen (ar.narrow t.m)
  vertex : p.vertex = [t.x, t.y, t.z]
  status : p.genStatus = t.status
  time : p.time = ar.narrow (ar.overLight t.t)

/-- Particle `i` lists particle `j`. -/
def ListsAs (e : HepEvent) (i j : Nat) : Prop := ∃ t, e.tracks[i]? = some t ∧ j ∈ listed t

instance (e : HepEvent) (i j : Nat) : Decidable (ListsAs e i j) :=
  match h : e.tracks[i]? with
  | none => isFalse fun ⟨t, h1, _⟩ => by rw [h] at h1; cases h1
  | some t => if hj : j ∈ listed t then isTrue ⟨t, h, hj⟩ else isFalse fun ⟨t', h1, h2⟩ => by rw [h] at h1; cases h1; exact hj h2

/-- Status 2 without daughters: an entry of the event that decays into nothing. -/
def Undecayed (e : HepEvent) (ns : List Lcio.PNode) (k : Nat) : Prop :=
  ∃ t n, e.tracks[k]? = some t ∧ ns[k]? = some n ∧ t.status = 2 ∧ n.daughters = []

/-- Parents and daughters: as listed in the event; entries 94 ("jets") get the entries before them, from their mother on, that have status 2 and no daughters
as parents too, until they have as many parents as daughters. -/
structure Related (e : HepEvent) (ns : List Lcio.PNode) : Prop where
  length : ns.length = e.tracks.length
  symmetric : ∀ (i j : Nat) a b, ns[i]? = some a → ns[j]? = some b → (j ∈ a.daughters ↔ i ∈ b.parents)
  inside : ∀ (i : Nat) a, ns[i]? = some a → ∀ j, j ∈ a.daughters ∨ j ∈ a.parents → j < ns.length
  nodup : ∀ n ∈ ns, n.parents.Nodup ∧ n.daughters.Nodup
  daughters : ∀ (i : Nat) t n, e.tracks[i]? = some t → ns[i]? = some n → listed t ≠ [] ∨ t.status ≠ 2 ∨ (∀ u ∈ e.tracks, u.pid ≠ 94) → n.daughters = listed t
  parents : ∀ (j : Nat) t n, e.tracks[j]? = some t → ns[j]? = some n → t.pid ≠ 94 → n.parents = (List.range ns.length).filter fun i => ListsAs e i j
  jets : ∀ (j : Nat) t n, e.tracks[j]? = some t → ns[j]? = some n → t.pid = 94 →
    ∃ extra, n.parents = ((List.range ns.length).filter fun i => ListsAs e i j) ++ extra ∧
      (∀ k ∈ extra, t.mother1 - 1 ≤ k ∧ k < j ∧ ∃ u, e.tracks[k]? = some u ∧ u.status = 2 ∧ listed u = []) ∧
      (extra ≠ [] → (n.parents.length : Int) ≤ t.daughter2 - t.daughter1 + 1) ∧
      ((n.parents.length : Int) < t.daughter2 - t.daughter1 + 1 → ∀ k : Nat, t.mother1 - 1 ≤ k → k < j → ¬ Undecayed e ns k)
  writable : ∀ n ∈ ns, n.readOnly = false

/-- The collection made of an event. -/
structure Converted (ar : HepArith) (e : HepEvent) (weight : W64) (process : Int) (c : HepCollection) : Prop where
  particles : c.particles.length = e.tracks.length
  same : ∀ (i : Nat) t p, e.tracks[i]? = some t → c.particles[i]? = some p → SameParticle ar t p
  old : e.ev4 = none → ∀ p ∈ c.particles, p.spin = [0, 0, 0] ∧ p.colorFlow = [0, 0]
  new : ∀ v, e.ev4 = some v → ∀ (i : Nat) p s cf, c.particles[i]? = some p → v.spins[i]? = some s → v.colors[i]? = some cf →
    p.spin = [s.1, s.2.1, s.2.2].map ar.narrow ∧ p.colorFlow = [cf.1, cf.2]
  relatives : Related e c.relatives
  process : c.idrup.getD 0 = process
  weight : c.weight = ar.narrow weight

/-- Weights and process numbers, of the latest event that has them (from those before on). -/
def carried : W64 × Int → List HepEvent → List (W64 × Int)
  | _, [] => []
  | k, e :: es =>
    let k' := match e.ev4 with
      | none => k
      | some v => (v.weight, v.process)
    k' :: carried k' es

end Spec
