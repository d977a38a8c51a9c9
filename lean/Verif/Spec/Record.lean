import Verif.Spec.Match
import Verif.Sio.Record
/-
Specification of the layout of blocks and records, and of what decoding a record should give.
-/
namespace Spec
open Sio

/-- A number below 2^32 as a four-byte item. -/
def word (n : Nat) : Item := .arr 4 [n]
/-- Characters as an item. -/
def chars (s : List Byte) : Item := .arr 1 (s.map UInt8.toNat)

/-- Length of a block header on the wire: length, marker, version, name length, padded name. -/
def blockHeaderLen (b : WBlock) : Nat := 16 + b.name.length + padding b.name.length
/-- Length of a block on the wire: header plus payload. -/
def blockLen (b : WBlock) : Nat := blockHeaderLen b + (bytesOf b.items).length

/-- The header of a block on the wire: length, marker, version, name. -/
def hdrItems (b : WBlock) : List Item :=
  [word (blockLen b), word 0xdeadbeef, word b.version.toNat, word b.name.length, chars b.name]

/-- A block on the wire: header and payload. -/
def blockItems (b : WBlock) : List Item := hdrItems b ++ b.items

/-- All blocks of a record. -/
def blocksItems (bs : List WBlock) : List Item := bs.flatMap blockItems

/-- A block that can be written: name and arrays below 4 GiB, as is the whole block. -/
def blockFits (b : WBlock) : Prop := b.name.length + 3 < 2 ^ 32 ∧ (∀ i ∈ b.items, fits i) ∧ blockLen b < 2 ^ 32

/-- Length of a record header on the wire. -/
def headerLen (name : List Byte) : Nat := 24 + name.length + padding name.length

/-- A record header on the wire: header length, marker, options, data length, uncompressed length, name. -/
def headerItems (name : List Byte) (opts : W32) (stored full : Nat) : List Item :=
  [word (headerLen name), word 0xabadcafe, word opts.toNat, word stored, word full, word name.length, chars name]

/-- Length of the data of a record. -/
def dataLen (bs : List WBlock) : Nat := (bytesOf (blocksItems bs)).length

/-- A record on the wire. -/
def recordItems (name : List Byte) (opts : W32) (bs : List WBlock) : List Item :=
  headerItems name opts (dataLen bs) (dataLen bs) ++ blocksItems bs

/-- A record that can be written: the library accepts its name (see C07), and everything in it, and the record as a
whole, is below 4 GiB. -/
structure Writable (name : List Byte) (bs : List WBlock) : Prop where
  nameOk : validRecordName name = true
  blocks : ∀ b ∈ bs, blockFits b
  size : headerLen name + dataLen bs < 2 ^ 32

instance (b : WBlock) : Decidable (blockFits b) := by unfold blockFits; infer_instance
instance (name : List Byte) (bs : List WBlock) : Decidable (Writable name bs) :=
  decidable_of_iff (validRecordName name = true ∧ (∀ b ∈ bs, blockFits b) ∧ headerLen name + dataLen bs < 2 ^ 32)
    ⟨fun ⟨a, b, c⟩ => ⟨a, b, c⟩, fun ⟨a, b, c⟩ => ⟨a, b, c⟩⟩

/-- What reading the blocks of a record should give. -/
structure Decoded (α : Type) where
  /-- results of the decoders with the block names, in order -/
  results : List (List Byte × α)
  /-- identity of the next object that would be created -/
  next : Nat
  /-- every object tag in the record, in order: its address when written, and the object that was created for
  it, if its block was decoded -/
  objects : List (Nat × Option Nat)
  /-- the pointer values met by the decoders, in order -/
  slots : List Nat

/-- Reading blocks: each block is given to the first decoder with its name; blocks without decoder are passed
over. `φ` gives the word standing for a pointer value. Undefined if a decoder's calls do not match. -/
def decodeAll {α : Type} (φ : Nat → Nat) (decs : List (RBlock α)) : List WBlock → Nat → Option (Decoded α)
  | [], n => some ⟨[], n, [], []⟩
  | b :: bs, n =>
    match decs.find? (fun d => d.name == b.name) with
    | none => (decodeAll φ decs bs n).map fun r =>
        { r with objects := (tagsOf b.items).map (·, none) ++ r.objects }
    | some d => match (d.read b.version).runI φ ⟨b.items, n, []⟩ with
      | none => none
      | some (a, s) => (decodeAll φ decs bs s.next).map fun r =>
        { results := (b.name, a) :: r.results, next := r.next,
          objects := s.regs.map (fun x => (x.1, some x.2)) ++ (tagsOf s.items).map (·, none) ++ r.objects,
          slots := ptrsOf (b.items.take (b.items.length - s.items.length)) ++ r.slots }

/-- The object a stored pointer should refer to after reading: null for null, for an address without tag in
the record, and when the block holding the (first) tag was not decoded; else the object created for it. -/
def target (objects : List (Nat × Option Nat)) (a : Nat) : Nat :=
  if a = 0 then 0
  else match objects.find? (fun x => x.1 == a) with
    | some (_, some o) => o
    | _ => 0

/-- The directory of a record's blocks: one entry per block, in order, the first one starting at `start` and
each next one where the previous ended. -/
def directory (start : Nat) : List WBlock → List BlockInfo
  | [] => []
  | b :: bs =>
    { recordStart := start, recordEnd := start + blockLen b, headerLength := blockHeaderLen b,
      version := b.version, dataLength := (bytesOf b.items).length, name := b.name } ::
    directory (start + blockLen b) bs

/-- Handing out blocks, given with their payload bytes: in order, each block that has a decoder is decoded by the
first one registered under its name, which gets the version of the block and a device positioned at the start
of the payload. The device's tables of pointers and tags, and the count of objects, carry over. A library
exception thrown by a decoder becomes `io_failure` and ends everything. -/
def handOut {α : Type} (decs : List (RBlock α)) :
    List (WBlock × List Byte) → RDev → Except Err (List (List Byte × α) × RDev)
  | [], dev => .ok ([], dev)
  | (b, payload) :: bs, dev =>
    match decs.find? (fun d => d.name == b.name) with
    | none => handOut decs bs dev
    | some d =>
      match (d.read b.version).run { dev with buf := bytesOf (hdrItems b) ++ payload, cur := blockHeaderLen b } with
      | .error e => .error (rethrow e)
      | .ok (a, dev) => match handOut decs bs dev with
        | .error e => .error e
        | .ok (rest, dev) => .ok ((b.name, a) :: rest, dev)

end Spec
