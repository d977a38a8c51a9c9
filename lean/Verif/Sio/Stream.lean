import Verif.Sio.Record
/-
File streams, and the record level functions of the SIO API that work on them.
-/
namespace Sio

/-! ## Streams -/

/-- `sio::ifstream` (`std::ifstream`): file content, read position, `eofbit` and `failbit`, and `is_open()`.
`badbit` (hardware errors) is not modelled. The position may be beyond the end of the file. -/
structure IStream where
  bytes : List Byte
  pos : Nat := 0
  eof : Bool := false
  fail : Bool := false
  isOpen : Bool := true
  deriving Repr, DecidableEq

/-- `std::ios::good`. -/
def IStream.good (s : IStream) : Bool := !s.eof && !s.fail

/-- `std::istream::read(ptr, n)`: the bytes extracted and the new state. The sentry sets `failbit` and nothing is extracted if the
stream is not good; a short read sets `eofbit` and `failbit`. -/
def IStream.read (s : IStream) (n : Nat) : List Byte × IStream :=
  if !s.good then ([], { s with fail := true })
  else
    let got := (s.bytes.drop s.pos).take n
    (got, { s with pos := s.pos + got.length, eof := got.length < n, fail := got.length < n })

/-- `std::istream::seekg(pos)` (C++11): clears `eofbit`; does not move if `failbit` is set. Seeking beyond the end
of a file is possible. -/
def IStream.seekg (s : IStream) (p : Nat) : IStream :=
  if s.fail then { s with eof := false } else { s with eof := false, pos := p }

/-- `sio::ofstream` (`std::ofstream`) that is open and whose writes succeed: file content and write position. -/
structure OStream where
  bytes : List Byte
  pos : Nat := 0
  deriving Repr, DecidableEq

/-- Overwrite part of a list from an offset, extending it if needed (with zeros if the offset is beyond the end). -/
def overwrite (l : List Byte) (off : Nat) (new : List Byte) : List Byte :=
  resize l off ++ new ++ l.drop (off + new.length)

/-- `std::ostream::write`. -/
def OStream.write (s : OStream) (b : List Byte) : OStream :=
  { bytes := if b.isEmpty then s.bytes else overwrite s.bytes s.pos b, pos := s.pos + b.length }

/-! ## Reading records -/

/-- definitions.h:133: `2*sizeof(pos_type) + 5*sizeof(unsigned int) + 64` with a 16-byte `pos_type`. -/
def maxRecordInfoLen : Nat := 116

/-- First part of the header in `api::read_record_info`, sio/src/api.cc:92-94: header length and marker. -/
def recordHeaderStart : RProg (Nat × Nat) := do
  let headerLength ← r32
  let marker ← r32
  return (headerLength.toNat, marker.toNat)

/-- Second part of the header in `api::read_record_info`, sio/src/api.cc:106-115: options, data length, uncompressed length, name. -/
def recordHeaderRest : RProg (W32 × Nat × Nat × List Byte) := do
  let options ← r32
  let dataLength ← r32
  let uncompressedLength ← r32
  let nameLength ← r32
  if nameLength.toNat > 64 then .throw .noMarker
  else do
    let name ← r8s nameLength.toNat
    return (options, dataLength.toNat, uncompressedLength.toNat, name)

/-- `(4 - (len & bit_align)) & bit_align` in unsigned arithmetic, sio/src/api.cc:122, 525 and 565. -/
def padBytes (len : Nat) : Nat := (4 - (len &&& 3)) &&& 3

/-- `api::read_record_info`, sio/src/api.cc:70-131. Besides the result or exception it returns the stream and the buffer,
which keep their changes when an exception is thrown. The buffer is resized to 116 bytes, which keeps the bytes it had
before ("stale" bytes); the second `stream.read` (line 105) is not followed by a check of the stream. It is undefined
behaviour if it delivers more bytes than there is room for. (`rec_info` after an exception is not modelled: no caller
looks at it.) -/
def readRecordInfo (s : IStream) (buf : List Byte) : Except Err RecordInfo × IStream × List Byte :=
  if !s.isOpen then (.error .notOpen, s, buf)
  else if !s.good then (.error .badState, s, buf)
  else
    let start := s.pos
    let buf := resize buf maxRecordInfoLen
    let r := s.read 8
    let s := r.2
    let buf := overwrite buf 0 r.1
    if s.eof then (.error .eof, s, buf)
    else if !s.good then (.error .badState, s, buf)
    else match recordHeaderStart.run { buf := buf } with
      | .error e => (.error e, s, buf)
      | .ok ((headerLength, marker), _) =>
        if marker ≠ recordMarker then (.error .noMarker, { s with fail := true }, buf)
        else
          let r := s.read ((headerLength + 2 ^ 32 - 8) % 2 ^ 32)
          let s := r.2
          if r.1.length > maxRecordInfoLen - 8 then (.error .ub, s, buf)
          else
            let buf := overwrite buf 8 r.1
            match recordHeaderRest.run { buf := buf, cur := 8 } with
            | .error e => (.error e, s, buf)
            | .ok ((options, dataLength, uncompressedLength, name), _) =>
              let totLen := (dataLength + headerLength) % 2 ^ 32
              let totLen := if isCompressed options then (totLen + padBytes dataLength) % 2 ^ 32 else totLen
              (.ok { fileStart := start, fileEnd := start + totLen, headerLength := headerLength, options := options,
                     dataLength := dataLength, uncompressedLength := uncompressedLength, name := name },
               s, resize buf headerLength)

/-- `api::read_record_data`, sio/src/api.cc:135-162. -/
def readRecordData (s : IStream) (info : RecordInfo) (buf : List Byte) (shift : Nat) : Except Err Unit × IStream × List Byte :=
  if !s.isOpen then (.error .notOpen, s, buf)
  else if !s.good then (.error .badState, s, buf)
  else
    let buf := resize buf (shift + info.dataLength)
    let s := s.seekg (info.fileStart + info.headerLength)
    if !s.good then (.error .badState, s, buf)
    else
      let r := s.read info.dataLength
      let s := r.2
      let buf := overwrite buf shift r.1
      if !s.good then (.error .ioFailure, s, buf)
      else
        let s := s.seekg info.fileEnd
        if !s.good then (.error .badState, s, buf)
        else (.ok (), s, resize buf (shift + info.dataLength))

/-- `api::read_record(stream, rec_info, outbuf)`, sio/src/api.cc:166-172. -/
def readRecord (s : IStream) (buf : List Byte) : Except Err RecordInfo × IStream × List Byte :=
  match readRecordInfo s buf with
  | (.error e, s, buf) => (.error e, s, buf)
  | (.ok info, s, buf) => match readRecordData s info buf info.headerLength with
    | (.error e, s, buf) => (.error e, s, buf)
    | (.ok (), s, buf) => (.ok info, s, buf)

/-- `buffer::span(start, count)`, sio/src/buffer.cc:386-395. -/
def spanOf (buf : List Byte) (start count : Nat) : Except Err (List Byte) :=
  if start + count > buf.length then .error .outOfRange else .ok ((buf.drop start).take count)

/-- `api::read_records`, sio/include/sio/api.h:407-426. The predicate and the callback may keep a state `σ` (variables they
capture), and the callback may throw. The first argument bounds the number of iterations. -/
def readRecords {σ : Type} (valid : σ → RecordInfo → σ × Bool) (func : σ → RecordInfo → List Byte → σ × Except Err Bool) :
    Nat → σ → IStream → List Byte → σ × Except Err Unit × IStream × List Byte
  | 0, st, s, buf => (st, .error .diverge, s, buf)
  | fuel+1, st, s, buf =>
    match readRecordInfo s buf with
    | (.error e, s, buf) => (st, .error e, s, buf)
    | (.ok info, s, buf) =>
      match valid st info with
      | (st, true) => match readRecordData s info buf info.headerLength with
        | (.error e, s, buf) => (st, .error e, s, buf)
        | (.ok (), s, buf) => match spanOf buf info.headerLength info.dataLength with
          | .error e => (st, .error e, s, buf)
          | .ok span => match func st info span with
            | (st, .error e) => (st, .error e, s, buf)
            | (st, .ok true) => readRecords valid func fuel st s buf
            | (st, .ok false) => (st, .ok (), s, buf)
      | (st, false) => readRecords valid func fuel st (s.seekg info.fileEnd) buf

/-- Loop of `api::skip_records(stream, pred)`, sio/include/sio/api.h:434-445. -/
def skipRecordsLoop {σ : Type} (pred : σ → RecordInfo → σ × Bool) :
    Nat → σ → IStream → List Byte → σ × Except Err Unit × IStream
  | 0, st, s, _ => (st, .error .diverge, s)
  | fuel+1, st, s, buf =>
    match readRecordInfo s buf with
    | (.error e, s, _) => (st, .error e, s)
    | (.ok info, s, buf) =>
      let s := s.seekg info.fileEnd
      if !s.good then (st, .error .badState, s)
      else match pred st info with
        | (st, true) => skipRecordsLoop pred fuel st s buf
        | (st, false) => (st, .ok (), s)

/-- `api::skip_records(stream, pred)`, sio/include/sio/api.h:431-446, with a fresh buffer of 116 bytes. -/
def skipRecords {σ : Type} (pred : σ → RecordInfo → σ × Bool) (fuel : Nat) (st : σ) (s : IStream) : σ × Except Err Unit × IStream :=
  skipRecordsLoop pred fuel st s (zeros maxRecordInfoLen)

/-- `api::skip_n_records`, sio/src/api.cc:185-191. -/
def skipNRecords (fuel n : Nat) (s : IStream) : Except Err Unit × IStream :=
  (skipRecords (fun (c : Nat) _ => (c + 1, decide (c + 1 < n))) fuel 0 s).2

/-- `api::skip_records(stream, nskip, name)`, sio/src/api.cc:195-203. -/
def skipRecordsNamed (fuel n : Nat) (name : List Byte) (s : IStream) : Except Err Unit × IStream :=
  (skipRecords (fun (c : Nat) i => let c' := if name = i.name then c + 1 else c; (c', decide (c' < n))) fuel 0 s).2

/-- `api::go_to_record`, sio/src/api.cc:207-220. -/
def goToRecord (fuel : Nat) (name : List Byte) (s : IStream) : Except Err Unit × IStream :=
  match skipRecords (fun (g : Nat) i => if name = i.name then (i.fileStart, false) else (g, true)) fuel 0 s with
  | (_, .error e, s) => (.error e, s)
  | (g, .ok (), s) =>
    let s := s.seekg g
    if !s.good then (.error .badState, s) else (.ok (), s)

/-! ## Writing records -/

/-- `api::write_record(stream, rec_buf, rec_info)`, sio/src/api.cc:508-537, on an open and good stream and a valid span. -/
def writeRecordTo (s : OStream) (rec : List Byte) (info : RecordInfo) : RecordInfo × OStream :=
  let start := s.pos
  let s := s.write rec
  let padlen := padBytes rec.length
  let s := if padlen > 0 then s.write (zeros padlen) else s
  ({ info with fileStart := start, fileEnd := s.pos }, s)

/-- `api::write_record(stream, hdr_span, data_span, rec_info)`, sio/src/api.cc:541-577, on an open and good stream and valid spans. -/
def writeRecordTo2 (s : OStream) (hdr data : List Byte) (info : RecordInfo) : RecordInfo × OStream :=
  let start := s.pos
  let s := s.write hdr
  let s := s.write data
  let padlen := padBytes data.length
  let s := if padlen > 0 then s.write (zeros padlen) else s
  ({ info with fileStart := start, fileEnd := s.pos }, s)

/-! ## Compression -/

/-- A compression codec, as used through `compress_record` and `zlib_compression::uncompress`
(sio/src/compression/zlib.cc:35-71). `compress` returns the new content of the output buffer. `uncompress` gets the size of the output
buffer and returns the bytes it is filled with, or fails; zlib itself is not modelled. -/
structure Codec where
  compress : List Byte → Except Err (List Byte)
  uncompress : List Byte → Nat → Except Err (List Byte)

/-- `api::compress_record`, sio/include/sio/api.h:451-477, for valid buffers: the new record info, record buffer and compressed data. -/
def compressRecord (codec : Codec) (info : RecordInfo) (rec : List Byte) : Except Err (RecordInfo × List Byte × List Byte) :=
  rethrowing do
    let options := setCompression info.options true
    if info.headerLength > rec.length then throw .outOfRange
    let comp ← codec.compress (rec.drop info.headerLength)
    let info := { info with options := options, dataLength := comp.length % 2 ^ 32 }
    let d : WDev := { buf := rec }
    let d ← d.run [.arr 4 [info.headerLength], .arr 4 [recordMarker], .arr 4 [info.options.toNat], .arr 4 [info.dataLength]]
    return (info, d.buf, comp)

end Sio
