import Verif.Spec.Calls
import Verif.Sio.Stream
import Verif.Lcio.Reader
/-
What can be wrong with damaged files. (C74, C75)
-/
namespace Spec
open Sio Lcio

/-- While the program reads from the device, one of its calls asks for 4 GiB (up to three bytes less) or more. -/
def Overlong {α : Type} : RProg α → RDev → Prop
  | .ret _, _ => False
  | .throw _, _ => False
  | .arr s c k, d => 2 ^ 32 - 3 ≤ s * c ∨ match d.data s c with
    | .error _ => False
    | .ok (vs, d') => Overlong (k vs) d'
  | .ptr k, d => match d.data 4 1 with
    | .error _ => False
    | .ok (vs, d') => Overlong (k (vs.headD 0)) d'
  | .tag _ k, d => match d.data 4 1 with
    | .error _ => False
    | .ok (_, d') => Overlong k d'
  | .new k, d => Overlong (k d.next) { d with next := d.next + 1 }

/-- A block in the data of a record asks for 4 GiB or more when it is decoded: for its name, or by a length in its contents. -/
def OverlongBlock {α : Type} (data : List Byte) (decoders : List (RBlock α)) : Prop :=
  (∃ p, Overlong blockHeader { buf := data.drop p }) ∨
  ∃ p info span, extractBlock data p = .ok (info, span) ∧ ∃ b ∈ decoders, b.name = info.name ∧
    ∃ dev : RDev, dev.buf = span ∧ dev.cur = info.headerLength ∧ Overlong (b.read info.version) dev

/-- The bytes of a record contain a block of length zero. -/
def ZeroBlock (data : List Byte) : Prop := ∃ p < data.length, wordAt data p = 0 ∧ wordAt data (p + 4) = 0xdeadbeef

/-- A file contains a record header whose length is not one of a header. -/
def WrongHeader (file : List Byte) : Prop := ∃ p, p + 116 < file.length ∧ wordAt file (p + 4) = 0xabadcafe ∧ (wordAt file p < 8 ∨ 116 < wordAt file p)

/-- A record header in a file says that the record has no bytes at all: header, data and for compressed records the padding add up to zero
modulo `2^32`; or the header is so short that the length of the data is not in it. -/
def ZeroRecord (file : List Byte) : Prop := ∃ p < file.length, wordAt file (p + 4) = 0xabadcafe ∧
  (wordAt file p < 16 ∨ (wordAt file p + wordAt file (p + 12)) % 2 ^ 32 = 0 ∨
   (wordAt file p + wordAt file (p + 12) + (4 - wordAt file (p + 12) % 4) % 4) % 2 ^ 32 = 0)

/-- A collection of MCParticles in the event that has particles of its own. -/
def OwnParticles (c : Collection) : Prop := c.type = str "MCParticle" ∧ c.flag.getLsbD 18 = false

/-- A particle in the event has a parent that is not a particle of the event: a null pointer, or a pointer to something else. -/
def WrongParent (cols : List (Str × Collection)) : Prop :=
  ∃ c ∈ cols, OwnParticles c.2 ∧ ∃ e ∈ c.2.elems, ∃ o, e.obj = some (.mcParticle o) ∧ ∃ a ∈ o.parents,
    ¬ ∃ c' ∈ cols, ∃ e' ∈ c'.2.elems, e'.addr = a ∧ ∃ o', e'.obj = some (.mcParticle o')

/-! ## Files -/

/-- A record of this name can be read at position `p` of the file, and `data` are its data as they are stored. The reader has a buffer that may still hold
bytes of the records before: they stand in for what the header leaves out. -/
def HeldAt (file : List Byte) (p : Nat) (info : RecordInfo) (data : List Byte) : Prop :=
  (∃ buf, (readRecordInfo { bytes := file, pos := p } buf).1 = .ok info) ∧ data = (file.drop (p + info.headerLength)).take info.dataLength ∧
  data.length = info.dataLength

/-- Somewhere in the file there is a record of this name with these data, as they are stored. -/
def Stored (file : List Byte) (name : Str) (data : List Byte) : Prop := ∃ p info, HeldAt file p info data ∧ info.name = name

/-- Somewhere in the file there is a record of this name with these data, after they have been uncompressed if the header says that they are compressed. -/
def Recorded (codec : Codec) (file : List Byte) (name : Str) (data : List Byte) : Prop :=
  ∃ p info stored, HeldAt file p info stored ∧ info.name = name ∧ plainData codec info stored = .ok data

/-- The codec reports errors with exceptions, and fills at most the buffer it is given. -/
structure SafeCodec (codec : Codec) : Prop where
  ub : ∀ data n, codec.uncompress data n ≠ .error .ub
  ends : ∀ data n, codec.uncompress data n ≠ .error .diverge
  size : ∀ data n out, codec.uncompress data n = .ok out → out.length ≤ n

/-- The random access record in the data of a record. -/
def accessIn (data : List Byte) : Option RandomAccess := match readBlocks data [accessDecoder] with
  | .error _ => none
  | .ok (rs, _, _) => some (((rs.getLast?).map (·.2)).getD {})

/-- The position that a signed number stands for: negative numbers count from the end of the file. -/
def fromEnd (file : List Byte) (n : Int) : Nat := if n < 0 then (file.length + n).toNat else n.toNat

/-- The file ends with a random access record for the whole file, but where it points there is none that can be read. -/
def LostAccess (file : List Byte) : Prop := ∃ info data f, HeldAt file (file.length - randomAccessSize) info data ∧ info.name = accessName ∧
  accessIn data = some f ∧ ∃ buf, ∀ info', (readRecord { bytes := file, pos := fromEnd file f.nextLoc.toInt } buf).1 = .ok info' → info'.name ≠ accessName

/-- One random access record leads to another: the one before it in the file. -/
def Leads (file : List Byte) (p q : Nat) : Prop := ∃ info data ra, HeldAt file p info data ∧ info.name = accessName ∧ accessIn data = some ra ∧
  ra.prevLoc ≠ 0 ∧ q = fromEnd file ra.prevLoc.toInt

/-- Random access records lead back to where one started. -/
def Cycle (file : List Byte) : Prop := ∃ ps : List Nat, 2 ≤ ps.length ∧ ps.head? = ps.getLast? ∧ ∀ i p q, ps[i]? = some p → ps[i + 1]? = some q → Leads file p q

/-- What is wrong with a file that leads to undefined behaviour of a reader. -/
inductive Danger (cfg : RConfig) (file : List Byte) : Prop where
  /-- The length of a record header is not one of a header (C20). -/
  | recordHeader (h : WrongHeader file)
  /-- A length in a run header is too large. -/
  | run (data) (h : Recorded cfg.codec file runRecordName data ∨ Stored file runRecordName data) (o : OverlongBlock data [runDecoder])
  /-- A length in an event header is too large. It is read with the wanted collections, or for the index with none. -/
  | header (data only) (ho : only = cfg.wanted ∨ only = [str "__dummy__"]) (h : Recorded cfg.codec file headerRecordName data) (o : OverlongBlock data [headerDecoder only])
  /-- A length in a record for direct access is too large. -/
  | access (data) (h : Stored file accessName data) (o : OverlongBlock data [accessDecoder])
  | index (data) (h : Recorded cfg.codec file indexName data) (o : OverlongBlock data [indexDecoder])
  /-- A length in an event is too large. -/
  | collections (hdata hdr data) (h1 : Recorded cfg.codec file headerRecordName hdata) (h2 : decodeHeader cfg hdata = .ok hdr)
      (h3 : Recorded cfg.codec file eventRecordName data) (o : OverlongBlock data (eventDecoders cfg.std hdr.cols))
  /-- The event has a collection whose type does not exist. -/
  | unknownType (hdata hdr data) (h1 : Recorded cfg.codec file headerRecordName hdata) (h2 : decodeHeader cfg hdata = .ok hdr)
      (h3 : Recorded cfg.codec file eventRecordName data) (p info span) (hb : extractBlock data p = .ok (info, span))
      (c) (hc : c ∈ hdr.cols) (hn : c.1 = info.name) (hk : kindOf c.2.type = none)
  /-- The event has a collection of reconstructed particles in the format of version 1.2 or older. -/
  | oldParticles (hdata hdr data) (h1 : Recorded cfg.codec file headerRecordName hdata) (h2 : decodeHeader cfg hdata = .ok hdr)
      (h3 : Recorded cfg.codec file eventRecordName data) (p info span) (hb : extractBlock data p = .ok (info, span))
      (c) (hc : c ∈ hdr.cols) (hn : c.1 = info.name) (hk : kindOf c.2.type = some .recoParticle) (hv : newer info.version 1 2 = false)
  /-- The parent of a particle is not a particle. -/
  | parent (hdata hdr data cols) (h1 : Recorded cfg.codec file headerRecordName hdata) (h2 : decodeHeader cfg hdata = .ok hdr)
      (h3 : Recorded cfg.codec file eventRecordName data) (h4 : decodeCollections cfg hdr data = .ok cols) (h : WrongParent cols)
  /-- The last random access record is not where it should be. -/
  | lost (h : LostAccess file)

/-- What is wrong with a file on which a reader may loop forever. -/
inductive Stuck (cfg : RConfig) (file : List Byte) : Prop where
  /-- A record of length zero. -/
  | record (h : ZeroRecord file)
  /-- A block of length zero. -/
  | block (name data) (h : Recorded cfg.codec file name data ∨ Stored file name data) (hz : ZeroBlock data)
  /-- A cycle of random access records. -/
  | cycle (h : Cycle file)

/-- What a user can do with a reader: open files and then make calls in any order, whether they succeed or throw exceptions. -/
inductive Reached (cfg : RConfig) (files : List (Str × List Byte)) : Reader → Prop where
  | opened (direct : Bool) (h : files ≠ []) : Reached cfg files (Reader.openFiles cfg direct files).2
  | nextEvent {r} (h : Reached cfg files r) : Reached cfg files (r.readNextEvent cfg).2
  | nextRun {r} (h : Reached cfg files r) : Reached cfg files (r.readNextRunHeader cfg).2
  | skip {r} (h : Reached cfg files r) (n : Int) : Reached cfg files (r.skipNEvents n).2
  | numbers {r} (h : Reached cfg files r) : Reached cfg files (r.needMap cfg).2
  | run {r} (h : Reached cfg files r) (run : W32) : Reached cfg files (r.readRunHeader cfg run).2
  | event {r} (h : Reached cfg files r) (run evt : W32) : Reached cfg files (r.readEvent cfg run evt).2
  | stream {r} (h : Reached cfg files r) (listeners : Nat) (maxRecord : Int) : Reached cfg files (r.readStream cfg listeners maxRecord).2.2
  | close {r} (h : Reached cfg files r) : Reached cfg files r.close

end Spec
