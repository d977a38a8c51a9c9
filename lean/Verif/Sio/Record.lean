import Verif.Sio.Device
/-
SIO blocks and records in memory: names, versions, block and record (de)serialisation.
-/
namespace Sio

/-! ## Names, versions and option words -/

/-- `isalpha` in the "C" locale. -/
def isAlpha (c : Byte) : Bool := (65 ≤ c && c ≤ 90) || (97 ≤ c && c ≤ 122)
/-- `isalnum` in the "C" locale. -/
def isAlnum (c : Byte) : Bool := isAlpha c || (48 ≤ c && c ≤ 57)

/-- Loop of `sio::validate` over the characters after the first, definitions.h:225-232. `*cname < 0` is a
byte of 128 or more. The loop ends at the first NUL; the list is the string, and `c_str()` adds the final NUL. -/
def validateTail : List Byte → Bool
  | [] => true
  | c :: cs =>
    if c = 0 then true
    else if c ≥ 128 then false
    else if !isAlnum c && c != 95 then false
    else validateTail cs

/-- `sio::validate`, definitions.h:217-234. -/
def validate (name : List Byte) : Bool :=
  match name with
  | [] => false  -- *cname is the NUL, which is not alphabetic
  | c :: cs =>
    if c ≥ 128 then false
    else if !isAlpha c && c != 95 then false
    else validateTail cs

/-- `sio::valid_record_name`, definitions.h:241-249. -/
def validRecordName (name : List Byte) : Bool :=
  if !validate name then false
  else if name.length > 64 then false
  else true

/-- `version::encode_version`, sio/src/version.cc:6-8. Both arguments are 16-bit; the shift is done in `int`
and the result is converted to 32 bits. -/
def encodeVersion (major minor : BitVec 16) : W32 := (major.zeroExtend 32 <<< 16) + minor.zeroExtend 32
/-- `version::minor_version`, sio/src/version.cc:12-14. -/
def minorVersion (v : W32) : BitVec 16 := (v &&& 0x0000ffff#32).truncate 16
/-- `version::major_version`, sio/src/version.cc:18-20. -/
def majorVersion (v : W32) : BitVec 16 := ((v &&& 0xffff0000#32) >>> 16).truncate 16

/-- definitions.h:127. -/
def recordMarker : Nat := 0xabadcafe
/-- definitions.h:129. -/
def blockMarker : Nat := 0xdeadbeef

/-- `api::is_compressed`, sio/src/api.cc:581-583. -/
def isCompressed (opts : W32) : Bool := (opts &&& 1#32) != 0#32
/-- `api::set_compression`, sio/src/api.cc:587-594 (the new option word; the old bit is `isCompressed opts`). -/
def setCompression (opts : W32) (value : Bool) : W32 :=
  let o := opts &&& ~~~ 1#32
  if value then o ||| 1#32 else o

/-! ## Writing blocks and records -/

/-- A block as seen by the writer: name, version, and the device calls of its `write` method
(sio/include/sio/block.h:22-75). -/
structure WBlock where
  name : List Byte
  version : W32
  items : List Item
  deriving Repr

/-- `SIO_RETHROW(e, io_failure, ...)`: a caught `sio::exception` is replaced by `io_failure`. Outcomes that
are not `sio::exception`s are not caught. -/
def rethrow : Err → Err
  | .ub => .ub
  | .diverge => .diverge
  | .lengthError => .lengthError
  | .lcException => .lcException
  | .eventException => .eventException
  | .notAvailable => .notAvailable
  | .readOnly => .readOnly
  | .ioException => .ioException
  | .endOfData => .endOfData
  | _ => .ioFailure

/-- Catch-and-rethrow around a piece of code. -/
def rethrowing {α : Type} : Except Err α → Except Err α
  | .ok a => .ok a
  | .error e => .error (rethrow e)

/-- One iteration of the loop of `api::write_blocks`, sio/src/api.cc:421-447. -/
def writeBlock (d : WDev) (blk : WBlock) : Except Err WDev := do
  let start := d.cur
  let nameLen := blk.name.length % 2 ^ 32
  let d ← d.run [.arr 4 [blockMarker], .arr 4 [blockMarker], .arr 4 [blk.version.toNat], .arr 4 [nameLen],
    .arr 1 ((blk.name.take nameLen).map UInt8.toNat)]
  let d ← d.run blk.items
  let blkEnd := d.cur
  let len := (blkEnd - start) % 2 ^ 32
  let d ← d.seek start
  let d ← d.data 4 [len]
  d.seek blkEnd

/-- The loop of `api::write_blocks`, sio/src/api.cc:421-447. -/
def writeBlockList (d : WDev) : List WBlock → Except Err WDev
  | [] => .ok d
  | b :: bs => do
    let d ← rethrowing (writeBlock d b)
    writeBlockList d bs

/-- `api::write_blocks`, sio/src/api.cc:420-449. -/
def writeBlocks (d : WDev) (blocks : List WBlock) : Except Err WDev := do
  let d ← writeBlockList d blocks
  d.relocate

/-- `sio::record_info`, definitions.h:146-161. The 32-bit members are kept as numbers below 2^32. -/
structure RecordInfo where
  fileStart : Nat := 0
  fileEnd : Nat := 0
  headerLength : Nat := 0
  options : W32 := 0
  dataLength : Nat := 0
  uncompressedLength : Nat := 0
  name : List Byte := []
  deriving Repr, DecidableEq

/-- The body of the `try` of `api::write_record(name, buffer, blocks, opts)`, sio/src/api.cc:461-499.
`buf` is the content of the buffer given by the user, which is overwritten. -/
def writeRecordBody (name : List Byte) (buf : List Byte) (blocks : List WBlock) (opts : W32) :
    Except Err (RecordInfo × List Byte) := do
  let opts := setCompression opts false
  let d : WDev := { buf := buf }
  let d ← d.run [.arr 4 [recordMarker], .arr 4 [recordMarker], .arr 4 [opts.toNat]]
  let datalenPos := d.cur
  let nameLen := name.length % 2 ^ 32
  let d ← d.run [.arr 4 [recordMarker], .arr 4 [recordMarker], .arr 4 [nameLen], .arr 1 ((name.take nameLen).map UInt8.toNat)]
  let headerLength := d.cur % 2 ^ 32
  let d ← d.seek 0
  let d ← d.data 4 [headerLength]
  let d ← d.seek headerLength
  let d ← writeBlocks d blocks
  let endPos := d.cur
  let d ← d.seek datalenPos
  let dataLength := (endPos - headerLength) % 2 ^ 32
  let d ← d.data 4 [dataLength]
  let d ← d.data 4 [dataLength]
  return ({ headerLength := headerLength, options := opts, dataLength := dataLength,
            uncompressedLength := dataLength, name := name }, resize d.buf endPos)

/-- `api::write_record(name, buffer, blocks, opts)`, sio/src/api.cc:453-504, for a valid buffer. -/
def writeRecord (name : List Byte) (buf : List Byte) (blocks : List WBlock) (opts : W32) :
    Except Err (RecordInfo × List Byte) :=
  if !validRecordName name then .error .invalidArgument
  else rethrowing (writeRecordBody name buf blocks opts)

/-! ## Reading blocks -/

/-- `sio::block_info`, definitions.h:168-181. -/
structure BlockInfo where
  recordStart : Nat
  recordEnd : Nat
  headerLength : Nat
  version : W32
  dataLength : Nat
  name : List Byte
  deriving Repr, DecidableEq

/-- The header part of `api::extract_block`, sio/src/api.cc:253-267, as a read program: block length,
marker check, version, name. -/
def blockHeader : RProg (Nat × W32 × List Byte) := do
  let blockLen ← r32
  let marker ← r32
  if marker.toNat ≠ blockMarker then .throw .noMarker
  else do
    let version ← r32
    let nameLen ← r32
    let name ← r8s nameLen.toNat
    return (blockLen.toNat, version, name)

/-- `api::extract_block`, sio/src/api.cc:244-273. Returns the block info and the bytes of the block. -/
def extractBlock (rec : List Byte) (index : Nat) : Except Err (BlockInfo × List Byte) := do
  if index ≥ rec.length then throw .invalidArgument
  let dev : RDev := { buf := rec.drop index }
  let ((blockLen, version, name), dev) ← blockHeader.run dev
  let headerLength := dev.cur % 2 ^ 32
  let _ ← dev.seek blockLen
  if index + blockLen > rec.length then throw .outOfRange
  return ({ recordStart := index % 2 ^ 32, recordEnd := (index + blockLen) % 2 ^ 32, headerLength := headerLength,
            version := version, dataLength := (blockLen + 2 ^ 32 - headerLength) % 2 ^ 32, name := name },
          (rec.drop index).take blockLen)

/-- A block as seen by the reader: name and `read(device, version)` method. -/
structure RBlock (α : Type) where
  name : List Byte
  read : W32 → RProg α

/-- Loop of `api::read_block_infos`, sio/src/api.cc:228-239. The first argument bounds the number of
iterations; running out of it is the outcome `diverge`. -/
def readBlockInfosLoop (rec : List Byte) : Nat → Nat → Except Err (List BlockInfo)
  | fuel, pos =>
    if pos ≥ rec.length then .ok []
    else match fuel with
    | 0 => .error .diverge
    | fuel+1 => do
      let (info, _) ← extractBlock rec pos
      let rest ← readBlockInfosLoop rec fuel info.recordEnd
      return info :: rest

/-- `api::read_block_infos`, sio/src/api.cc:224-240. A loop that is still running after one iteration per
byte never ends (see `Props`, C13), so the bound does not cut off any terminating run. -/
def readBlockInfos (rec : List Byte) : Except Err (List BlockInfo) :=
  readBlockInfosLoop rec (rec.length + 1) 0

/-- Loop of `api::read_blocks`, sio/src/api.cc:281-307. The result lists what the decoders returned, with
the name of the block; blocks without a decoder are skipped. The device is the same for all blocks. -/
def readBlocksLoop {α : Type} (rec : List Byte) (blocks : List (RBlock α)) :
    Nat → Nat → RDev → Except Err (List (List Byte × α) × RDev)
  | fuel, pos, dev =>
    if pos ≥ rec.length then .ok ([], dev)
    else match fuel with
    | 0 => .error .diverge
    | fuel+1 => do
      let (info, span) ← extractBlock rec pos
      match blocks.find? (fun b => b.name == info.name) with
      | none => readBlocksLoop rec blocks fuel info.recordEnd dev
      | some b => do
        let dev := { dev with buf := span }
        let dev ← dev.seek info.headerLength
        let (a, dev) ← rethrowing ((b.read info.version).run dev)
        let (rest, dev) ← readBlocksLoop rec blocks fuel info.recordEnd dev
        return ((info.name, a) :: rest, dev)

/-- `api::read_blocks`, sio/src/api.cc:277-309. The decoders' results hold raw match words in place of
pointers. Relocation turns the word `w` held by a pointer variable into the pointer `mem'`, see
`readBlocks_mem` in the proofs: the second component of the result is the function applied to the word,
computed from the table of tags just before `pointer_relocation` clears it. -/
def readBlocks {α : Type} (rec : List Byte) (blocks : List (RBlock α)) (next : Nat := 1) :
    Except Err (List (List Byte × α) × (Nat → Nat) × RDev) := do
  let (res, dev) ← readBlocksLoop rec blocks (rec.length + 1) 0 { buf := [], next := next }
  let dev' ← dev.relocate
  return (res, fun w => if w = 0 then 0 else (mapFind w dev.pointedAt).getD 0, dev')

end Sio
