import Verif.Spec.Record
import Verif.Sio.Stream
/-
Specification vocabulary: records in a file.
-/
namespace Spec
open Sio

/-- A record in a file: name, options, length of the uncompressed data, and the stored data bytes. -/
structure Rec where
  name : List Byte
  opts : W32
  full : Nat
  data : List Byte
  deriving DecidableEq, Repr

/-- The bytes of the header of a record. -/
def Rec.header (r : Rec) : List Byte := bytesOf (headerItems r.name r.opts r.data.length r.full)

/-- The bytes of a record in a file: header, data, and zeros up to a multiple of four. -/
def Rec.wire (r : Rec) : List Byte := r.header ++ r.data ++ List.replicate (padding r.data.length) 0

/-- A record that can be in a file: name of at most 64 bytes, less than 4 GiB in total, and uncompressed data, which
consists of blocks, have a length that is a multiple of four. -/
structure Rec.Ok (r : Rec) : Prop where
  name : r.name.length ≤ 64
  size : r.wire.length < 2 ^ 32
  full : r.full < 2 ^ 32
  aligned : isCompressed r.opts = false → r.data.length % 4 = 0

/-- Description of a record that starts at position `p` of a file. -/
def Rec.info (r : Rec) (p : Nat) : RecordInfo :=
  { fileStart := p, fileEnd := p + r.wire.length, headerLength := headerLen r.name, options := r.opts,
    dataLength := r.data.length, uncompressedLength := r.full, name := r.name }

/-- The content of a file of records. -/
def fileOf (rs : List Rec) : List Byte := rs.flatMap Rec.wire

/-- Descriptions of records that follow each other from position `p` on. -/
def infosFrom (p : Nat) : List Rec → List RecordInfo
  | [] => []
  | r :: rs => r.info p :: infosFrom (p + r.wire.length) rs

/-! ### Client programs -/

/-- Reading records one after the other until an exception is thrown: what was read (description, and the bytes of header and
data), and the exception. -/
def readAll : Nat → IStream → List Byte → List (RecordInfo × List Byte) × Err
  | 0, _, _ => ([], .diverge)
  | fuel+1, s, buf => match readRecord s buf with
    | (.error e, _, _) => ([], e)
    | (.ok info, s, buf) => let r := readAll fuel s buf; ((info, buf) :: r.1, r.2)

/-- One record to be written: name, options, blocks, and whether to compress it. -/
structure Job where
  name : List Byte
  opts : W32
  blocks : List WBlock
  compress : Bool

/-- Writing one record, as LCIO does it (src/cpp/src/SIO/SIOWriter.cc, MT/LCWriter.cc): into a buffer with arbitrary
content, compressed or not, and then to the stream. Returns the description of the record and the bytes of its header and data. -/
def writeJob (codec : Codec) (buf : List Byte) (s : OStream) (j : Job) : Except Err (RecordInfo × List Byte × OStream) := do
  let (info, rec) ← writeRecord j.name buf j.blocks j.opts
  if j.compress then
    let (info, rec, comp) ← compressRecord codec info rec
    let hdr ← spanOf rec 0 info.headerLength
    let (info, s) := writeRecordTo2 s hdr comp info
    return (info, hdr ++ comp, s)
  else
    let (info, s) := writeRecordTo s rec info
    return (info, rec, s)

/-- Writing records one after the other. -/
def writeAll (codec : Codec) (buf : List Byte) (s : OStream) : List Job → Except Err (List (RecordInfo × List Byte) × OStream)
  | [] => .ok ([], s)
  | j :: js => do
    let (info, bytes, s) ← writeJob codec buf s j
    let (rest, s) ← writeAll codec buf s js
    return ((info, bytes) :: rest, s)

/-- A job that can be done: see `Writable`; and if compression is asked for, the codec succeeds on all data and the
compressed record is below 4 GiB. -/
structure Job.Ok (codec : Codec) (j : Job) : Prop where
  writable : Writable j.name j.blocks
  compressible : j.compress = true → ∀ data : List Byte, data.length = dataLen j.blocks →
    ∃ comp, codec.compress data = .ok comp ∧ headerLen j.name + comp.length + 3 < 2 ^ 32

/-! ### What the record level functions should do on a file of records -/

/-- Delivering records to a callback: those accepted by `valid` are given to `func`, until it returns false or throws. Says what
becomes of the state of the two, how the loop ends, and which records remain (`none` if the end of the file was met). -/
def scan {σ : Type} (valid : σ → RecordInfo → σ × Bool) (func : σ → RecordInfo → List Byte → σ × Except Err Bool) :
    σ → Nat → List Rec → σ × Except Err Unit × Option (List Rec)
  | st, _, [] => (st, .error .eof, none)
  | st, p, r :: rs => match valid st (r.info p) with
    | (st, false) => scan valid func st (p + r.wire.length) rs
    | (st, true) => match func st (r.info p) r.data with
      | (st, .error e) => (st, .error e, some rs)
      | (st, .ok true) => scan valid func st (p + r.wire.length) rs
      | (st, .ok false) => (st, .ok (), some rs)

/-- The elements up to and including the first one that does not satisfy `c`. -/
def upTo {α : Type} (c : α → Bool) : List α → List α
  | [] => []
  | a :: l => if c a then a :: upTo c l else [a]

/-- The records whose header and data are among the first `k` bytes of a file. -/
def contained : Nat → List Rec → List Rec
  | _, [] => []
  | k, r :: rs => if r.header.length + r.data.length ≤ k then r :: contained (k - r.wire.length) rs else []

end Spec
