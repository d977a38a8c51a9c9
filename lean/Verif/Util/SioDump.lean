import Verif.Lcio.RandomAccess
import Verif.Util.ParallelRead
/-
Listing of the records of a file: `sio::api::dump_records`, sio/src/api.cc:313-416.
-/
namespace Util
open Sio Lcio

/-- What one line of the listing shows. -/
inductive DumpLine
  /-- `std::string( tab_len, '-' )`. -/
  | rule
  /-- The titles of the columns for records, api.cc:327-334 and 352-359. -/
  | recordTitles
  /-- A record, api.cc:361-370. -/
  | record (info : RecordInfo)
  /-- The titles of the columns for blocks, api.cc:373-380. -/
  | blockTitles
  /-- A block, api.cc:394-403. -/
  | block (info : BlockInfo)
  /-- `std::cout << std::endl`, api.cc:405. -/
  | blank
  deriving DecidableEq, Repr

/-- The columns of a line, with their widths: `setw(30) << left << a << " | " << setw(15) << b << ...`, e.g. api.cc:363-370. -/
def dumpRow (a b c d e f : Str) : Str :=
  padLeft 30 a ++ str " | " ++ padLeft 15 b ++ str " | " ++ padLeft 15 c ++ str " | " ++ padLeft 12 d ++ str " | " ++ padLeft 10 e ++ str " | " ++ padLeft 15 f

/-- The text of a line, api.cc:326-405, without its end. Numbers are decimal: nothing else was asked of `std::cout` before. The version of a block is
printed as `major_version`.`minor_version` (sio/src/version.cc:12-20: upper and lower 16 bits). -/
def DumpLine.text : DumpLine → Str
  | .rule => List.replicate 117 45
  | .recordTitles => dumpRow (str "Record name ") (str "Start") (str "End") (str "Options") (str "Header len") (str "Data len")
  | .record i => dumpRow i.name (dec i.fileStart) (dec i.fileEnd) (dec i.options.toNat) (dec i.headerLength) (dec i.dataLength ++ str " (" ++ dec i.uncompressedLength ++ str ")")
  | .blockTitles => dumpRow (str "Block name ") (str "Start") (str "End") (str "Version") (str "Header len") (str "Data len")
  | .block b => dumpRow b.name (dec b.recordStart) (dec b.recordEnd) (dec (b.version.toNat / 65536) ++ str "." ++ dec (b.version.toNat % 65536)) (dec b.headerLength) (dec b.dataLength)
  | .blank => []

/-- What is printed for one record in detailed mode and how that ends, api.cc:350-405. `data` is the content of `rec_buffer`; `uncompress` gets all of it and the uncompressed length. -/
def dumpDetails (codec : Codec) (info : RecordInfo) (data : List Byte) : List DumpLine × Except Err Unit :=
  let head := [DumpLine.rule, .recordTitles, .record info, .rule, .blockTitles, .rule]
  match (if isCompressed info.options then codec.uncompress data info.uncompressedLength else spanOf data 0 info.dataLength) with
  | .error e => (head, .error e)
  | .ok plain => match readBlockInfos plain with
    | .error e => (head, .error e)
    | .ok bs => (head ++ bs.map .block ++ [.blank], .ok ())

/-- The loop of `dump_records`, api.cc:337-407: what is printed and how it ends. `counter` is `record_counter`, an `unsigned int`. The first argument bounds the number of iterations. -/
def dumpLoop (codec : Codec) (count : Nat) (detailed : Bool) : Nat → Nat → IStream → List Byte → List Byte → List DumpLine × Except Err Unit
  | 0, _, _, _, _ => ([], .error .diverge)
  | fuel+1, counter, s, infoBuf, recBuf =>
    if counter ≥ count then ([], .ok ())
    else match readRecordInfo s infoBuf with
      | (.error e, _, _) => ([], .error e)
      | (.ok info, s, infoBuf) =>
        if detailed then match readRecordData s info recBuf 0 with
          | (.error e, _, _) => ([], .error e)
          | (.ok (), s, recBuf) => match dumpDetails codec info recBuf with
            | (out, .error e) => (out, .error e)
            | (out, .ok ()) =>
              let r := dumpLoop codec count detailed fuel ((counter + 1) % 2 ^ 32) (s.seekg info.fileEnd) infoBuf recBuf
              (out ++ r.1, r.2)
        else
          let r := dumpLoop codec count detailed fuel ((counter + 1) % 2 ^ 32) (s.seekg info.fileEnd) infoBuf recBuf
          (.record info :: r.1, r.2)

/-- `catch( sio::exception &e )`, api.cc:409-415: the end of the file ends the listing, everything else is thrown again. -/
def dumpEnd : Except Err Unit → Except Err Unit
  | .error .eof => .ok ()
  | r => r

/-- `api::dump_records`, api.cc:313-416: what is printed and how it ends. -/
def dumpRecords (codec : Codec) (fuel : Nat) (s : IStream) (skip count : Nat) (detailed : Bool) : List DumpLine × Except Err Unit :=
  match (if skip > 0 then skipNRecords fuel skip s else (.ok (), s)) with
  | (.error e, _) => ([], dumpEnd (.error e))
  | (.ok (), s) =>
    let head := if detailed then [] else [DumpLine.rule, .recordTitles, .rule]
    let r := dumpLoop codec count detailed fuel 0 s (zeros maxRecordInfoLen) (zeros 1048576)
    (head ++ r.1, dumpEnd r.2)

end Util
