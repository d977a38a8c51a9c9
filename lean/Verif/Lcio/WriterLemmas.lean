import Verif.Spec.Sessions
import Verif.Sio.FileLemmas
import Verif.Lcio.PlainLemmas
import Verif.Lcio.EventLemmas2
/-
What the writer puts into a file.
-/
namespace Lcio
open Sio Spec

/-- A stream in the middle of a file: `A` is in front of the position and `T` behind it. -/
def over (A T : List Byte) : OStream := { bytes := A ++ T, pos := A.length }

theorem over_write (A T b : List Byte) : (over A T).write b = over (A ++ b) (T.drop b.length) := by
  unfold over OStream.write
  cases b with
  | nil => simp
  | cons x b =>
    simp only [List.isEmpty_cons, Bool.false_eq_true, if_false]
    rw [overwrite_append]
    simp

theorem over_writeRecordTo (A T rec : List Byte) (info : RecordInfo) :
    writeRecordTo (over A T) rec info =
      ({ info with fileStart := A.length, fileEnd := (A ++ rec ++ zeros (padding rec.length)).length },
       over (A ++ rec ++ zeros (padding rec.length)) (T.drop (rec ++ zeros (padding rec.length)).length)) := by
  unfold writeRecordTo
  simp only [over_write, padBytes_eq]
  split
  · simp only [List.drop_drop, List.length_append]
    simp [over, Nat.add_assoc]
  · rename_i h
    have : padding rec.length = 0 := by omega
    simp [this, zeros, over]

theorem over_writeRecordTo2 (A T hdr data : List Byte) (info : RecordInfo) :
    writeRecordTo2 (over A T) hdr data info =
      ({ info with fileStart := A.length, fileEnd := (A ++ hdr ++ data ++ zeros (padding data.length)).length },
       over (A ++ hdr ++ data ++ zeros (padding data.length)) (T.drop (hdr ++ data ++ zeros (padding data.length)).length)) := by
  unfold writeRecordTo2
  simp only [over_write, padBytes_eq]
  split
  · simp only [List.drop_drop, List.length_append, Nat.add_assoc]
    simp [over]
  · rename_i h
    have : padding data.length = 0 := by omega
    simp [this, zeros, over, List.drop_drop]

/-- The data of a record in a file, uncompressed. -/
def plainOf (codec : Codec) (r : Rec) : Except Err (List Byte) :=
  if isCompressed r.opts then codec.uncompress r.data r.full else .ok r.data

theorem plainData_rec (codec : Codec) (r : Rec) (p : Nat) : plainData codec (r.info p) r.data = plainOf codec r := rfl

/-- A record in a file that holds what some blocks are written as. -/
structure RecOf (codec : Codec) (r : Rec) (name buf : Str) (bs : List WBlock) : Prop where
  ok : r.Ok
  named : r.name = name
  len : isCompressed r.opts = false → r.data.length = dataLen bs
  plain : ∃ info bytes, writeRecord name buf bs 0 = .ok (info, bytes) ∧ plainOf codec r = .ok (bytes.drop info.headerLength)

theorem header_opts0 : setCompression (0 : W32) false = 0 ∧ setCompression (0 : W32) true = 1 := by decide

theorem over_writeJob (codec : Codec) (hcodec : Lossless codec) (buf A T : List Byte) (name : Str) (bs : List WBlock) (compress : Bool)
    (hj : Job.Ok codec ⟨name, 0, bs, compress⟩) :
    ∃ r : Rec, RecOf codec r name buf bs ∧ isCompressed r.opts = compress ∧
      writeJob codec buf (over A T) ⟨name, 0, bs, compress⟩ =
        .ok (r.info A.length, r.header ++ r.data, over (A ++ r.wire) (T.drop r.wire.length)) := by
  have hw := hj.writable
  obtain ⟨data, num, τ, -, -, hl, hwr⟩ := writeRecord_rec name buf bs 0 hw
  have hok := writeRecord_Ok name bs 0 data hw hl
  have hal := dataLen_align bs hw.blocks
  have hb := headerLen_bounds name hok.name
  have hh := header_length ⟨name, setCompression 0 false, dataLen bs, data⟩
  have hdrop : ((⟨name, setCompression 0 false, dataLen bs, data⟩ : Rec).header ++ data).drop (headerLen name) = data := by
    rw [show headerLen name = _ from hh.symm]; exact List.drop_left ..
  cases hc : compress with
  | false =>
    refine ⟨_, ⟨hok, rfl, fun _ => hl, _, _, hwr, ?_⟩, isCompressed_set .., ?_⟩
    · simp only [hdrop]
      unfold plainOf
      rw [if_neg (by simp [isCompressed_set])]
    · unfold writeJob
      simp only
      rw [hwr]
      have hp : padding data.length = 0 := by unfold padding; omega
      have hp2 : padding (List.length ((⟨name, setCompression 0 false, dataLen bs, data⟩ : Rec).header ++ data)) = 0 := by
        rw [List.length_append, hh]; unfold padding; simp only; omega
      simp only [bind, Except.bind, Bool.false_eq_true, if_false, over_writeRecordTo, hp2, pure, Except.pure]
      unfold Rec.info Rec.wire
      simp only [zeros, List.replicate_zero, List.append_nil, List.length_append, hl]
      rw [hl] at hp
      simp only [hp, List.replicate_zero, List.append_nil, List.length_nil, Nat.add_zero]
  | true =>
    subst hc
    obtain ⟨comp, hcomp, hcl⟩ := hj.compressible rfl data hl
    obtain ⟨rec', g1, g2⟩ := compressRecord_eq codec ⟨name, setCompression 0 false, dataLen bs, data⟩ hok
      { headerLength := headerLen name, options := setCompression 0 false, dataLength := dataLen bs,
               uncompressedLength := dataLen bs, name := name } comp rfl rfl hcomp (by simp only at hcl; omega)
    have hss : setCompression (setCompression (0 : W32) false) true = setCompression 0 true := by decide
    simp only [hss] at g1 g2
    refine ⟨⟨name, setCompression 0 true, dataLen bs, comp⟩, ⟨⟨hok.name, ?_, hok.full, ?_⟩, rfl, fun h => absurd (isCompressed_set 0 true) (by rw [h]; decide), _, _, hwr, ?_⟩, isCompressed_set .., ?_⟩
    · rw [wire_length]
      have : padding comp.length ≤ 3 := by unfold padding; omega
      simp only at hcl ⊢; omega
    · intro h; rw [isCompressed_set] at h; cases h
    · simp only [hdrop]
      unfold plainOf
      rw [if_pos (by simp [isCompressed_set])]
      have := hcodec data comp hcomp
      rw [hl] at this
      exact this
    · unfold writeJob
      simp only
      rw [hwr]
      simp only [bind, Except.bind, if_true, g1, g2, over_writeRecordTo2, pure, Except.pure]
      unfold Rec.info Rec.wire
      simp only [zeros, List.length_append, List.append_assoc]

/-- Records in a file that hold something that was written. -/
def Holds (codec : Codec) (std : Std Pid) : Put → List Rec → Prop
  | .run h buf, rs => ∃ r, rs = [r] ∧ RecOf codec r runRecordName buf [h.block] ∧ RunHeaderOk h ∧ Writable runRecordName [h.block]
  | .event h cols buf, rs => ∃ r r', rs = [r, r'] ∧ RecOf codec r headerRecordName buf.1 [EventHeader.block [] { h with cols := colHeads cols }] ∧
      RecOf codec r' eventRecordName buf.2 (eventBlocks std [] cols)

theorem over_put (codec : Codec) (hcodec : Lossless codec) (std : Std Pid) (compress : Bool) (p : Put) (hp : p.Ok codec std compress)
    (A T : List Byte) (ra : RaMgr) :
    ∃ rs, Holds codec std p rs ∧
      p.call codec std compress ⟨some (over A T), ra⟩ =
        (.ok (), ⟨some (over (A ++ fileOf rs) (T.drop (fileOf rs).length)), ra.add p.key A.length⟩) := by
  cases p with
  | run h buf =>
    obtain ⟨r, h1, -, h2⟩ := over_writeJob codec hcodec buf A T runRecordName [h.block] compress hp.2
    refine ⟨[r], ⟨r, rfl, h1, hp.1, hp.2.writable⟩, ?_⟩
    simp only [Put.call, Writer.writeRunHeader, h2, fileOf_cons, fileOf_nil, List.append_nil]
    rfl
  | event h cols buf =>
    obtain ⟨r, h1, -, h2⟩ := over_writeJob codec hcodec buf.1 A T headerRecordName _ compress hp.1
    obtain ⟨r', h3, -, h4⟩ := over_writeJob codec hcodec buf.2 (A ++ r.wire) (T.drop r.wire.length) eventRecordName _ compress hp.2
    refine ⟨[r, r'], ⟨r, r', rfl, h1, h3⟩, ?_⟩
    simp only [Put.call, Writer.writeEvent, h2, h4, fileOf_cons, fileOf_nil, List.append_nil, List.append_assoc, List.drop_drop, List.length_append]
    rfl

/-- The positions of things that are written one after the other from a position on. -/
def keysFrom (p : Nat) : List Put → List (List Rec) → List (RunEvent × Nat)
  | q :: qs, g :: gs => (q.key, p) :: keysFrom (p + (fileOf g).length) qs gs
  | _, _ => []

/-- Add entries to the map of a manager. -/
def RaMgr.addKeys (m : RaMgr) (l : List (RunEvent × Nat)) : RaMgr := l.foldl (fun m e => m.add e.1 e.2) m

theorem over_putAll (codec : Codec) (hcodec : Lossless codec) (std : Std Pid) (compress : Bool) (ps : List Put) (hp : ∀ p ∈ ps, p.Ok codec std compress)
    (A T : List Byte) (ra : RaMgr) :
    ∃ gs, All2 (Holds codec std) ps gs ∧
      putAll codec std compress ⟨some (over A T), ra⟩ ps =
        .ok ⟨some (over (A ++ fileOf gs.flatten) (T.drop (fileOf gs.flatten).length)), ra.addKeys (keysFrom A.length ps gs)⟩ := by
  induction ps generalizing A T ra with
  | nil => exact ⟨[], All2.nil _, by simp [putAll, fileOf_nil, keysFrom, RaMgr.addKeys]⟩
  | cons p ps ih =>
    obtain ⟨g, h1, h2⟩ := over_put codec hcodec std compress p (hp p (by simp)) A T ra
    obtain ⟨gs, h3, h4⟩ := ih (fun q hq => hp q (by simp [hq])) (A ++ fileOf g) (T.drop (fileOf g).length) (ra.add p.key A.length)
    refine ⟨g :: gs, All2.cons h1 h3, ?_⟩
    unfold putAll
    rw [h2]
    simp only [h4, List.flatten_cons, fileOf_append, List.append_assoc, List.drop_drop, List.length_append, keysFrom, RaMgr.addKeys, List.foldl_cons]

end Lcio
