import Verif.Lcio.SessionLemmas
import Verif.Lcio.EventProofs
/-
The content of a file that was written in several sessions.
-/
namespace Lcio
open Sio Spec

/-! ## Sessions in a file -/

/-- What a session adds to a file: records for what was written, the index, and the random access record. -/
structure Chunk where
  puts : List Put
  groups : List (List Rec)
  ix : Rec
  acc : Rec

def Chunk.recs (c : Chunk) : List Rec := c.groups.flatten ++ [c.ix, c.acc]
/-- What the session adds to the event map, if its first record is at `start`. -/
def Chunk.entries (start : Nat) (c : Chunk) : List (RunEvent × W64) := (keysFrom start c.puts c.groups).map fun e => (e.1, BitVec.ofNat 64 e.2)
def Chunk.map (start : Nat) (c : Chunk) : RunEventMap := ({} : RunEventMap).addAll (c.entries start)
def Chunk.ixLoc (start : Nat) (c : Chunk) : Nat := start + (fileOf c.groups.flatten).length
def Chunk.loc (start : Nat) (c : Chunk) : Nat := c.ixLoc start + c.ix.wire.length
/-- The random access object of the session. -/
def Chunk.access (start : Nat) (prev : W64) (c : Chunk) : RandomAccess :=
  { minRE := (c.map start).minRunEvent, maxRE := (c.map start).maxRunEvent, nRun := BitVec.ofNat 32 (c.map start).nRun,
    nEvt := BitVec.ofNat 32 (c.map start).nEvt, inOrder := 1, indexLoc := BitVec.ofNat 64 (c.ixLoc start), prevLoc := prev, nextLoc := 0,
    firstLoc := BitVec.ofNat 64 (c.loc start) }

structure Chunk.Ok (codec : Codec) (std : Std Pid) (start : Nat) (prev : W64) (c : Chunk) : Prop where
  puts : All2 (Holds codec std) c.puts c.groups
  some : c.puts ≠ []
  ix : IsIndex c.ix (c.map start)
  acc : IsAccess c.acc (c.access start prev)

def recsOf (cs : List Chunk) : List Rec := cs.flatMap Chunk.recs
def sizeOf (cs : List Chunk) : Nat := (fileOf (recsOf cs)).length

/-- The random access object for the whole file at the end of a session. -/
def closing (f : Option RandomAccess) (last : Option RandomAccess) (ra : RandomAccess) : RandomAccess :=
  let f := (last.toList ++ [ra]).foldl fileRecordStep (f.getD newFileRecord)
  { f with
    nextLoc := if f.nextLoc.slt ra.firstLoc then ra.firstLoc else f.nextLoc
    prevLoc := if ra.firstLoc.slt f.prevLoc then ra.firstLoc else f.prevLoc }

def prevOf (last : Option RandomAccess) : W64 := (last.map (·.firstLoc)).getD 0

/-- Sessions one after the other: with the last random access object and the one for the whole file. -/
inductive History (codec : Codec) (std : Std Pid) : List Chunk → Option RandomAccess → Option RandomAccess → Prop
  | nil : History codec std [] none none
  | snoc (cs : List Chunk) (last f : Option RandomAccess) (c : Chunk) (h : History codec std cs last f) (hc : c.Ok codec std (sizeOf cs) (prevOf last)) :
      History codec std (cs ++ [c]) (some (c.access (sizeOf cs) (prevOf last))) (some (closing f last (c.access (sizeOf cs) (prevOf last))))

/-- The content of the file. -/
inductive Content (codec : Codec) (std : Std Pid) (cs : List Chunk) (last f : Option RandomAccess) : Option (List Byte) → Prop
  | none (h : History codec std cs last f) (he : cs = []) : Content codec std cs last f none
  | some (h : History codec std cs last f) (a : RandomAccess) (ha : f = some a) (r : Rec) (hr : IsAccess r a) :
      Content codec std cs last f (some (fileOf (recsOf cs) ++ r.wire))

/-! ## Writing and closing -/

theorem addKeys_eq (m : RaMgr) (l : List (RunEvent × Nat)) :
    m.addKeys l = { m with map := m.map.addAll (l.map fun e => (e.1, BitVec.ofNat 64 e.2)) } := by
  unfold RaMgr.addKeys RunEventMap.addAll
  induction l generalizing m with
  | nil => rfl
  | cons e l ih => rw [List.foldl_cons, ih]; rfl

theorem access_wire (r : Rec) (a : RandomAccess) (h : IsAccess r a) : r.wire.length = 136 := by
  rw [wire_length, h.named, h.len]; decide

theorem keysFrom_fst (codec : Codec) (std : Std Pid) (ps : List Put) (gs : List (List Rec)) (h : All2 (Holds codec std) ps gs) (p : Nat) :
    (keysFrom p ps gs).map (·.1) = ps.map Put.key := by
  induction ps generalizing gs p with
  | nil => cases h.nil_inv; rfl
  | cons q ps ih =>
    obtain ⟨g, gs', rfl, h1, h2⟩ := h.cons_inv
    simp only [keysFrom, List.map_cons]
    rw [ih _ h2]

/-- The second half of a session. -/
theorem close_eq (codec : Codec) (std : Std Pid) (A T : List Byte) (ra : RaMgr) (puts : List Put) (gs : List (List Rec))
    (hg : All2 (Holds codec std) puts gs) (hne : puts ≠ []) (hn : puts.length < 2 ^ 27) (hr : RunsClose (puts.map Put.key)) (hT : T.length ≤ 136)
    (last : Option RandomAccess) (hl : ra.list = last.toList) (hm : ra.map = {}) :
    ∃ (c : Chunk) (r : Rec) (w : Writer), c.puts = puts ∧ c.groups = gs ∧ c.Ok codec std A.length (prevOf last) ∧
      IsAccess r (closing ra.file last (c.access A.length (prevOf last))) ∧
      Writer.close ⟨some (over (A ++ fileOf gs.flatten) (T.drop (fileOf gs.flatten).length)), ra.addKeys (keysFrom A.length puts gs)⟩ =
        .ok (w, some (A ++ fileOf c.recs ++ r.wire)) ∧
      w.stream = none ∧ w.ra.map = {} ∧ w.ra.list = [] ∧ w.ra.file = none := by
  rw [addKeys_eq, hm]
  have hfst := keysFrom_fst codec std puts gs hg A.length
  have hlen : (keysFrom A.length puts gs).length = puts.length := by
    have := congrArg List.length hfst; simpa using this
  generalize he : (keysFrom A.length puts gs).map (fun e => (e.1, BitVec.ofNat 64 e.2)) = es
  have hes : es.length = puts.length := by rw [← he]; simp [hlen]
  have hk : RunsClose (es.map (·.1)) := by
    have : es.map (·.1) = puts.map Put.key := by rw [← hfst, ← he]; simp
    rw [this]; exact hr
  unfold Writer.close RaMgr.writeRandomAccessRecords
  simp only
  have hne' : (({} : RunEventMap).addAll es).map ≠ [] := addAll_ne es {} (by intro h; rw [h] at hes; exact hne (List.eq_nil_of_length_eq_zero hes.symm))
  rw [if_neg (by simpa using hne')]
  obtain ⟨ix, buf1, hix, e1⟩ := over_writeIndex { ra with map := ({} : RunEventMap).addAll es } (A ++ fileOf gs.flatten) (T.drop (fileOf gs.flatten).length) es
    (by omega) hk rfl
  rw [e1]
  simp only
  generalize hra : ({ ({ ra with map := ({} : RunEventMap).addAll es, buf := buf1 } : RaMgr).createFromEventMap with
        indexLoc := BitVec.ofNat 64 (ix.info (A ++ fileOf gs.flatten).length).fileStart
        firstLoc := BitVec.ofNat 64 (over (A ++ fileOf gs.flatten ++ ix.wire) ((T.drop (fileOf gs.flatten).length).drop ix.wire.length)).pos
        prevLoc := ((ra.list.getLast?).map (·.firstLoc)).getD 0 } : RandomAccess) = a
  obtain ⟨acc, buf2, hacc, e2⟩ := over_writeAccess { map := ({} : RunEventMap).addAll es, list := ra.list ++ [a], file := ra.file, buf := buf1 }
    (A ++ fileOf gs.flatten ++ ix.wire) ((T.drop (fileOf gs.flatten).length).drop ix.wire.length) a
  rw [e2]
  simp only
  generalize hf : ({ RaMgr.createFileRecord { map := ({} : RunEventMap).addAll es, list := ra.list ++ [a], file := ra.file, buf := buf2 } with
     nextLoc := _, prevLoc := _ } : RandomAccess) = f
  obtain ⟨fr, buf3, hfr, e3⟩ := over_writeAccess { map := ({} : RunEventMap).addAll es, list := ra.list ++ [a], file := some f, buf := buf2 }
    (A ++ fileOf gs.flatten ++ ix.wire ++ acc.wire) (((T.drop (fileOf gs.flatten).length).drop ix.wire.length).drop acc.wire.length) f
  rw [e3]
  simp only
  have ha : a = Chunk.access A.length (prevOf last) ⟨puts, gs, ix, acc⟩ := by
    rw [← hra]
    unfold RaMgr.createFromEventMap Chunk.access Chunk.map Chunk.entries Chunk.loc Chunk.ixLoc prevOf Rec.info over
    simp only [he, hl, List.length_append]
    cases last <;> rfl
  have hcl : f = closing ra.file last a := by
    rw [← hf]
    unfold closing RaMgr.createFileRecord
    simp only [hl]
    have : BitVec.ofNat 64 (over (A ++ fileOf gs.flatten ++ ix.wire) ((T.drop (fileOf gs.flatten).length).drop ix.wire.length)).pos = a.firstLoc := by
      rw [← hra]
    rw [this]
  refine ⟨⟨puts, gs, ix, acc⟩, fr,
    ⟨none, RaMgr.clear { map := ({} : RunEventMap).addAll es, list := ra.list ++ [a], file := some f, buf := buf3 }⟩, rfl, rfl, ⟨hg, hne, ?_, ?_⟩, ?_, ?_, rfl, ?_, ?_, ?_⟩
  rotate_left 3
  · rw [Except.ok.injEq, Prod.mk.injEq]
    refine ⟨rfl, ?_⟩
    have hw := access_wire fr f hfr
    rw [List.drop_drop, List.drop_drop, List.drop_drop, List.drop_of_length_le (by omega)]
    simp [over, Chunk.recs, fileOf_append, fileOf_cons, fileOf_nil]
  · rfl
  · rfl
  · rfl
  · show IsIndex ix (Chunk.map _ _)
    unfold Chunk.map Chunk.entries
    simp only [he]
    exact hix
  · rw [← ha]; exact hacc
  · rw [← ha, ← hcl]; exact hfr

/-! ## Opening for append -/

theorem readAny_eq (m : RaMgr) (pre post : List Byte) (r : Rec) (hr : r.Ok) :
    ∃ buf, m.readAny (ready (pre ++ r.wire ++ post) pre.length) =
      (.ok (some (r.info pre.length, r.data)), ready (pre ++ r.wire ++ post) (pre.length + r.wire.length), { m with buf := buf }) := by
  have e : pre ++ r.wire ++ post = pre ++ r.header ++ r.data ++ (List.replicate (padding r.data.length) 0 ++ post) := by simp [Rec.wire]
  refine ⟨r.header ++ r.data, ?_⟩
  unfold RaMgr.readAny
  rw [e, readRecord_eq m.buf pre _ r hr _ rfl]
  simp only
  have hs : spanOf (r.header ++ r.data) (r.info pre.length).headerLength (r.info pre.length).dataLength = .ok r.data := by
    unfold spanOf Rec.info
    simp only
    rw [← header_length r, if_neg (by simp), List.drop_left, List.take_length]
  rw [hs]

theorem readAccess_eq (m : RaMgr) (pre post : List Byte) (r : Rec) (a : RandomAccess) (h : IsAccess r a) :
    ∃ buf, m.readAccess (ready (pre ++ r.wire ++ post) pre.length) =
      (.ok true, ready (pre ++ r.wire ++ post) (pre.length + r.wire.length), { m with list := m.list ++ [a], buf := buf }) := by
  obtain ⟨buf, e⟩ := readAny_eq m pre post r h.ok
  obtain ⟨ρ, d, e2⟩ := h.read
  refine ⟨buf, ?_⟩
  unfold RaMgr.readAccess
  rw [e]
  simp only
  rw [if_neg (by simp [Rec.info, h.named]), e2]
  rfl

theorem seekStream_pos (B : List Byte) (q p : Nat) : seekStream (ready B q) (p : Int) = (.ok (), ready B p) := by
  unfold seekStream
  rw [if_neg (by simp), if_neg (by omega)]
  simp only [seekg_ready, ready_good, Bool.not_true, Bool.false_eq_true, if_false, Int.toNat_natCast]

theorem seekStream_end (pre post : List Byte) (q n : Nat) (hn : n = post.length) (h0 : 0 < n) :
    seekStream (ready (pre ++ post) q) (-(n : Int)) = (.ok (), ready (pre ++ post) pre.length) := by
  unfold seekStream
  rw [if_neg (by simp), if_pos (by omega), if_neg (by simp), if_neg (by simp; omega)]
  simp only [ready, List.length_append, Prod.mk.injEq, true_and]
  congr 1
  omega

theorem readAccessAt_pos (m : RaMgr) (pre post : List Byte) (q : Nat) (r : Rec) (a : RandomAccess) (h : IsAccess r a) (p : Int) (hp : p = pre.length) :
    ∃ buf, m.readAccessAt (ready (pre ++ r.wire ++ post) q) p =
      (.ok true, ready (pre ++ r.wire ++ post) (pre.length + r.wire.length), { m with list := m.list ++ [a], buf := buf }) := by
  obtain ⟨buf, e⟩ := readAccess_eq m pre post r a h
  refine ⟨buf, ?_⟩
  subst hp
  unfold RaMgr.readAccessAt
  rw [seekStream_pos]
  exact e

theorem readAccessAt_end (m : RaMgr) (pre : List Byte) (q : Nat) (r : Rec) (a : RandomAccess) (h : IsAccess r a) :
    ∃ buf, m.readAccessAt (ready (pre ++ r.wire) q) (-(randomAccessSize : Int)) =
      (.ok true, ready (pre ++ r.wire) (pre.length + r.wire.length), { m with list := m.list ++ [a], buf := buf }) := by
  obtain ⟨buf, e⟩ := readAccess_eq m pre [] r a h
  refine ⟨buf, ?_⟩
  unfold RaMgr.readAccessAt
  rw [seekStream_end _ _ _ _ (by rw [access_wire r a h]; rfl) (by decide)]
  simpa using e

theorem toInt_ofNat64 (a : Nat) (ha : a < 2 ^ 63) : (BitVec.ofNat 64 a).toInt = a := by
  rw [BitVec.toInt_eq_toNat_cond, BitVec.toNat_ofNat]
  omega

theorem slt_ofNat (a b : Nat) (ha : a < 2 ^ 63) (hb : b < 2 ^ 63) : (BitVec.ofNat 64 a).slt (BitVec.ofNat 64 b) = decide (a < b) := by
  rw [BitVec.slt_eq_decide, toInt_ofNat64 a ha, toInt_ofNat64 b hb]
  simp

theorem recsOf_snoc (cs : List Chunk) (c : Chunk) : recsOf (cs ++ [c]) = recsOf cs ++ c.recs := by simp [recsOf]
theorem chunk_size (c : Chunk) : (fileOf c.recs).length = (fileOf c.groups.flatten).length + c.ix.wire.length + c.acc.wire.length := by
  simp [Chunk.recs, fileOf_append, fileOf_cons, fileOf_nil]; omega
theorem sizeOf_snoc (cs : List Chunk) (c : Chunk) : sizeOf (cs ++ [c]) = c.loc (sizeOf cs) + c.acc.wire.length := by
  unfold sizeOf Chunk.loc Chunk.ixLoc
  rw [recsOf_snoc, fileOf_append, List.length_append, chunk_size]; omega

/-- The file record of a file: where the last random access record is. -/
theorem history_next (codec : Codec) (std : Std Pid) (cs : List Chunk) (last f : Option RandomAccess) (h : History codec std cs last f) (hs : sizeOf cs < 2 ^ 63) :
    (cs = [] ∧ last = none ∧ f = none) ∨
    ∃ pre r l a, recsOf cs = pre ++ [r] ∧ last = some l ∧ f = some a ∧ IsAccess r l ∧ l.firstLoc = BitVec.ofNat 64 (fileOf pre).length ∧
      a.nextLoc = l.firstLoc ∧ l.nextLoc = 0 := by
  induction h with
  | nil => exact .inl ⟨rfl, rfl, rfl⟩
  | snoc cs last f c h hc ih =>
    right
    have h1 := sizeOf_snoc cs c
    refine ⟨recsOf cs ++ c.groups.flatten ++ [c.ix], c.acc, _, _, ?_, rfl, rfl, hc.acc, ?_, ?_, rfl⟩
    · rw [recsOf_snoc]; simp [Chunk.recs]
    · show BitVec.ofNat 64 (c.loc (sizeOf cs)) = _
      congr 1
      unfold Chunk.loc Chunk.ixLoc sizeOf
      simp [fileOf_append, fileOf_cons, fileOf_nil]; omega
    · have hz : (0 : W64) = BitVec.ofNat 64 0 := rfl
      rcases ih (by unfold Chunk.loc Chunk.ixLoc at h1; omega) with ⟨rfl, rfl, rfl⟩ | ⟨pre, r, l, a, e1, rfl, rfl, e2, e3, e4, e5⟩
      · unfold closing
        simp only [Option.toList, List.nil_append, List.foldl_cons, List.foldl_nil, fileRecordStep, Option.getD_none, newFileRecord, Chunk.access]
        rw [hz, slt_ofNat _ _ (by omega) (by omega)]
        simp only [Nat.not_lt_zero, decide_false, Bool.false_eq_true, if_false]
        rw [slt_ofNat _ _ (by omega) (by omega)]
        simp
        intro h; rw [h]
      · unfold closing
        have hlen : (fileOf pre).length < sizeOf cs := by
          unfold sizeOf; rw [e1, fileOf_append, List.length_append]
          have := wire_pos r
          simp [fileOf_cons, fileOf_nil]; omega
        have hlt : sizeOf cs ≤ c.loc (sizeOf cs) := by unfold Chunk.loc Chunk.ixLoc; omega
        simp only [Option.toList, List.cons_append, List.nil_append, List.foldl_cons, List.foldl_nil, fileRecordStep, Option.getD_some, Chunk.access, e4, e3, e5]
        rw [hz, slt_ofNat _ _ (by omega) (by omega)]
        simp only [Nat.not_lt_zero, decide_false, Bool.false_eq_true, if_false]
        rw [slt_ofNat _ _ (by omega) (by omega)]
        simp only [Nat.not_lt_zero, decide_false, Bool.false_eq_true, if_false]
        rw [slt_ofNat _ _ (by omega) (by omega), if_pos (by simp; omega)]

theorem initAppend_eq (codec : Codec) (std : Std Pid) (cs : List Chunk) (last : Option RandomAccess) (a : RandomAccess)
    (h : History codec std cs last (some a)) (hs : sizeOf cs < 2 ^ 63) (r : Rec) (hr : IsAccess r a) (m : RaMgr) (hl : m.list = []) (codec' : Codec) :
    ∃ buf, (m.initAppend codec' { bytes := fileOf (recsOf cs) ++ r.wire }).1 = .ok true ∧
      (m.initAppend codec' { bytes := fileOf (recsOf cs) ++ r.wire }).2.2 = { m with list := last.toList, file := some a, buf := buf } := by
  rcases history_next codec std cs last (some a) h hs with ⟨-, -, h0⟩ | ⟨pre, r', l, a', e1, rfl, ha, e2, e3, e4, -⟩
  · cases h0
  · cases ha
    obtain ⟨buf1, h1⟩ := readAccessAt_end m (fileOf (recsOf cs)) 0 r a hr
    have hp : l.firstLoc.toInt = (fileOf pre).length := by
      rw [e3, toInt_ofNat64]
      unfold sizeOf at hs
      rw [e1, fileOf_append, List.length_append] at hs
      omega
    obtain ⟨buf2, h2⟩ := readAccessAt_pos { m with list := [], file := some a, buf := buf1 } (fileOf pre) r.wire
      ((fileOf (recsOf cs)).length + r.wire.length) r' l e2 l.firstLoc.toInt hp
    have e5 : fileOf (recsOf cs) ++ r.wire = fileOf pre ++ r'.wire ++ r.wire := by
      rw [e1, fileOf_append]; simp [fileOf_cons, fileOf_nil]
    refine ⟨buf2, ?_⟩
    unfold RaMgr.initAppend
    have hin : ({ bytes := fileOf (recsOf cs) ++ r.wire } : IStream) = ready (fileOf (recsOf cs) ++ r.wire) 0 := rfl
    rw [hin, h1]
    simp only [hl, List.nil_append, List.getLast?_singleton, List.dropLast_singleton, e4]
    rw [e5, h2]
    exact ⟨rfl, rfl⟩

/-! ## Sizes -/

theorem holds_length (codec : Codec) (std : Std Pid) (p : Put) (g : List Rec) (h : Holds codec std p g) : g.length ≤ 2 ∧ ∀ r ∈ g, r.Ok := by
  cases p with
  | run hd buf => obtain ⟨r, rfl, h, -⟩ := h; simp [h.ok]
  | event hd cols buf => obtain ⟨r, r', rfl, h, h'⟩ := h; simp [h.ok, h'.ok]

theorem groups_length (codec : Codec) (std : Std Pid) (ps : List Put) (gs : List (List Rec)) (h : All2 (Holds codec std) ps gs) :
    gs.flatten.length ≤ 2 * ps.length ∧ ∀ r ∈ gs.flatten, r.Ok := by
  induction ps generalizing gs with
  | nil => cases h.nil_inv; simp
  | cons p ps ih =>
    obtain ⟨g, gs', rfl, h1, h2⟩ := h.cons_inv
    obtain ⟨a1, a2⟩ := holds_length codec std p g h1
    obtain ⟨b1, b2⟩ := ih gs' h2
    refine ⟨by simp only [List.flatten_cons, List.length_append, List.length_cons]; omega, ?_⟩
    intro r hr
    rw [List.flatten_cons, List.mem_append] at hr
    exact hr.elim (a2 r) (b2 r)

theorem fileOf_size (rs : List Rec) (h : ∀ r ∈ rs, r.Ok) : (fileOf rs).length ≤ rs.length * 2 ^ 32 := by
  induction rs with
  | nil => simp [fileOf_nil]
  | cons r rs ih =>
    have h1 := (h r (by simp)).size
    have h2 := ih (fun x hx => h x (by simp [hx]))
    rw [fileOf_cons, List.length_append, List.length_cons]; omega

theorem chunk_recs (codec : Codec) (std : Std Pid) (start : Nat) (prev : W64) (c : Chunk) (h : c.Ok codec std start prev) :
    c.recs.length ≤ 4 * c.puts.length ∧ ∀ r ∈ c.recs, r.Ok := by
  obtain ⟨a1, a2⟩ := groups_length codec std _ _ h.puts
  have := List.length_pos_of_ne_nil h.some
  refine ⟨by simp only [Chunk.recs, List.length_append, List.length_cons, List.length_nil]; omega, ?_⟩
  intro r hr
  simp only [Chunk.recs, List.mem_append, List.mem_cons, List.not_mem_nil, or_false] at hr
  rcases hr with hr | rfl | rfl
  · exact a2 r hr
  · exact h.ix.ok
  · exact h.acc.ok

theorem history_recs (codec : Codec) (std : Std Pid) (cs : List Chunk) (last f : Option RandomAccess) (h : History codec std cs last f) :
    (recsOf cs).length ≤ 4 * (cs.flatMap Chunk.puts).length ∧ ∀ r ∈ recsOf cs, r.Ok := by
  induction h with
  | nil => simp [recsOf]
  | snoc cs last f c h hc ih =>
    obtain ⟨a1, a2⟩ := chunk_recs codec std _ _ c hc
    refine ⟨?_, ?_⟩
    · rw [recsOf_snoc]; simp only [List.length_append, List.flatMap_append, List.flatMap_cons, List.flatMap_nil, List.append_nil]; omega
    · intro r hr
      rw [recsOf_snoc, List.mem_append] at hr
      exact hr.elim (ih.2 r) (a2 r)

theorem history_size (codec : Codec) (std : Std Pid) (cs : List Chunk) (last f : Option RandomAccess) (h : History codec std cs last f)
    (hn : (cs.flatMap Chunk.puts).length < 2 ^ 27) : sizeOf cs < 2 ^ 61 := by
  obtain ⟨h1, h2⟩ := history_recs codec std cs last f h
  have := fileOf_size (recsOf cs) h2
  unfold sizeOf
  have : (recsOf cs).length * 2 ^ 32 < 2 ^ 29 * 2 ^ 32 := by
    apply (Nat.mul_lt_mul_right (by decide)).2; omega
  omega

/-! ## Sessions -/

/-- A writer that is not in use. -/
structure Idle (w : Writer) : Prop where
  stream : w.stream = none
  map : w.ra.map = {}
  list : w.ra.list = []
  file : w.ra.file = none

theorem runsClose_of (s : List Put)
    (h : ∀ p ∈ s, ∀ q ∈ s, -2 ^ 31 ≤ p.key.run.toInt - q.key.run.toInt ∧ p.key.run.toInt - q.key.run.toInt < 2 ^ 31) : RunsClose (s.map Put.key) := by
  intro a ha b hb
  obtain ⟨p, hp, rfl⟩ := List.mem_map.1 ha
  obtain ⟨q, hq, rfl⟩ := List.mem_map.1 hb
  have := h p hp q hq
  unfold BitVec.ssubOverflow
  simp
  omega

/-- A session that writes something. -/
theorem session_step (codec : Codec) (hcodec : Lossless codec) (std : Std Pid) (cs : List Chunk) (last f : Option RandomAccess) (file : Option (List Byte))
    (hc : Content codec std cs last f file) (w : Writer) (hw : Idle w) (s : Session) (hs : s.Ok codec std) (hne : s.puts ≠ [])
    (hn : (cs.flatMap Chunk.puts ++ s.puts).length < 2 ^ 27) :
    ∃ c last' f' w' bytes, c.puts = s.puts ∧ s.run codec std w file = .ok (w', some bytes) ∧ Idle w' ∧
      Content codec std (cs ++ [c]) last' f' (some bytes) := by
  rw [List.length_append] at hn
  obtain ⟨stream, ra⟩ := w
  obtain ⟨w1, w2, w3, w4⟩ := hw
  simp only at w1 w2 w3 w4
  subst w1
  cases hc with
  | none h he =>
    cases h with
    | snoc => simp at he
    | nil =>
    obtain ⟨gs, g1, g2⟩ := over_putAll codec hcodec std s.compress s.puts hs.puts [] [] ra
    obtain ⟨c, r, w', c1, c2, c3, c4, c5, c6⟩ := close_eq codec std [] [] ra s.puts gs g1 hne (by omega) (runsClose_of _ hs.runs) (by simp) none w3 w2
    refine ⟨c, _, _, w', _, c1, ?_, ⟨c6.1, c6.2.1, c6.2.2.1, c6.2.2.2⟩, .some (.snoc [] none none c .nil c3) _ rfl r ?_⟩
    · unfold Session.run Writer.openNew
      simp only [bind, Except.bind]
      have hover : ({ bytes := [] } : OStream) = over [] [] := rfl
      rw [hover, g2]
      simp only
      rw [c5]
      simp [recsOf]
    · rw [w4] at c4
      exact c4
  | some h a ha r hr =>
    subst ha
    have hsz := history_size codec std cs last (some a) h (by omega)
    obtain ⟨buf, i1, i2⟩ := initAppend_eq codec std cs last a h (by omega) r hr ra w3 codec
    obtain ⟨gs, g1, g2⟩ := over_putAll codec hcodec std s.compress s.puts hs.puts (fileOf (recsOf cs)) r.wire
      { ra with list := last.toList, file := some a, buf := buf }
    obtain ⟨c, r', w', c1, c2, c3, c4, c5, c6⟩ := close_eq codec std (fileOf (recsOf cs)) r.wire
      { ra with list := last.toList, file := some a, buf := buf } s.puts gs g1 hne (by omega) (runsClose_of _ hs.runs)
      (by rw [access_wire r a hr]; exact Nat.le_refl _) last rfl w2
    refine ⟨c, _, _, w', _, c1, ?_, ⟨c6.1, c6.2.1, c6.2.2.1, c6.2.2.2⟩, .some (.snoc cs last (some a) c h c3) _ rfl r' c4⟩
    unfold Session.run Writer.openAppend
    simp only [bind, Except.bind]
    generalize hia : ra.initAppend codec { bytes := fileOf (recsOf cs) ++ r.wire } = x at i1 i2
    obtain ⟨x1, x2, x3⟩ := x
    simp only at i1 i2
    subst i1 i2
    simp only [if_true]
    have hlen : (fileOf (recsOf cs) ++ r.wire).length = (fileOf (recsOf cs)).length + 136 := by
      rw [List.length_append, access_wire r a hr]
    rw [if_neg (by rw [hlen]; unfold randomAccessSize; omega)]
    have hover : ({ bytes := fileOf (recsOf cs) ++ r.wire, pos := (fileOf (recsOf cs) ++ r.wire).length - randomAccessSize } : OStream) =
        over (fileOf (recsOf cs)) r.wire := by
      rw [hlen]; unfold over randomAccessSize; simp
    simp only
    rw [hover, g2]
    simp only
    rw [c5]
    rw [recsOf_snoc, fileOf_append]

/-- A session that writes nothing leaves the file as it is. -/
theorem session_empty (codec : Codec) (std : Std Pid) (cs : List Chunk) (last f : Option RandomAccess) (bytes : List Byte)
    (hc : Content codec std cs last f (some bytes)) (hsz : sizeOf cs < 2 ^ 63) (w : Writer) (hw : Idle w) (compress : Bool) :
    ∃ w', Session.run codec std w (some bytes) ⟨compress, []⟩ = .ok (w', some bytes) ∧ Idle w' := by
  obtain ⟨stream, ra⟩ := w
  obtain ⟨w1, w2, w3, w4⟩ := hw
  simp only at w1 w2 w3 w4
  subst w1
  cases hc with
  | some h a ha r hr =>
    subst ha
    obtain ⟨buf, i1, i2⟩ := initAppend_eq codec std cs last a h hsz r hr ra w3 codec
    unfold Session.run Writer.openAppend
    simp only [bind, Except.bind]
    generalize hia : ra.initAppend codec { bytes := fileOf (recsOf cs) ++ r.wire } = x at i1 i2
    obtain ⟨x1, x2, x3⟩ := x
    simp only at i1 i2
    subst i1 i2
    simp only [if_true]
    have hlen : (fileOf (recsOf cs) ++ r.wire).length = (fileOf (recsOf cs)).length + 136 := by
      rw [List.length_append, access_wire r a hr]
    rw [if_neg (by rw [hlen]; unfold randomAccessSize; omega)]
    refine ⟨⟨none, RaMgr.clear { ra with list := last.toList, file := some a, buf := buf }⟩, ?_, rfl, rfl, rfl, rfl⟩
    · unfold putAll Writer.close RaMgr.writeRandomAccessRecords
      simp [w2]

theorem sessions_content (codec : Codec) (hcodec : Lossless codec) (std : Std Pid) (ss : List Session) (hs : ∀ s ∈ ss, s.Ok codec std)
    (cs : List Chunk) (last f : Option RandomAccess) (file : Option (List Byte))
    (hc : Content codec std cs last f file) (w : Writer) (hw : Idle w) (hfile : (∃ bytes, file = some bytes) ∨ ∃ s rest, ss = s :: rest ∧ s.puts ≠ [])
    (hn : (cs.flatMap Chunk.puts ++ allPuts ss).length < 2 ^ 27) :
    ∃ cs' last' f' w' bytes, cs'.map Chunk.puts = (ss.map Session.puts).filter (fun l => !l.isEmpty) ∧
      runSessions codec std w file ss = .ok (w', some bytes) ∧ Idle w' ∧ Content codec std (cs ++ cs') last' f' (some bytes) := by
  induction ss generalizing cs last f file w with
  | nil =>
    rcases hfile with ⟨bytes, rfl⟩ | ⟨s, rest, h, -⟩
    · exact ⟨[], last, f, w, bytes, rfl, rfl, hw, by simpa using hc⟩
    · cases h
  | cons s ss ih =>
    have hn' : (cs.flatMap Chunk.puts).length + s.puts.length + (allPuts ss).length < 2 ^ 27 := by
      simp only [allPuts, List.flatMap_cons, List.length_append] at hn ⊢; omega
    by_cases hp : s.puts = []
    · rcases hfile with ⟨bytes, rfl⟩ | ⟨s', rest, h, h'⟩
      · have hsz : sizeOf cs < 2 ^ 63 := by
          cases hc with
          | some h => have := history_size codec std cs last f h (by omega); omega
        obtain ⟨w', h1, h2⟩ := session_empty codec std cs last f bytes hc hsz w hw s.compress
        obtain ⟨cs', last', f', w'', bytes', a1, a2, a3⟩ := ih (fun x hx => hs x (by simp [hx])) cs last f (some bytes) hc w' h2 (.inl ⟨_, rfl⟩)
          (by simp only [List.length_append]; omega)
        refine ⟨cs', last', f', w'', bytes', ?_, ?_, a3⟩
        · rw [a1]; simp [hp]
        · obtain ⟨c, p⟩ := s
          simp only at hp
          subst hp
          unfold runSessions
          rw [h1]
          exact a2
      · cases h; exact absurd hp h'
    · obtain ⟨c, last1, f1, w1, bytes1, b1, b2, b3, b4⟩ := session_step codec hcodec std cs last f file hc w hw s (hs s (by simp)) hp
        (by simp only [List.length_append]; omega)
      obtain ⟨cs', last', f', w'', bytes', a1, a2, a3, a4⟩ := ih (fun x hx => hs x (by simp [hx])) (cs ++ [c]) last1 f1 (some bytes1) b4 w1 b3 (.inl ⟨_, rfl⟩)
        (by simp only [List.length_append, List.flatMap_append, List.flatMap_cons, List.flatMap_nil, List.append_nil, b1]; omega)
      refine ⟨c :: cs', last', f', w'', bytes', ?_, ?_, a3, by simpa using a4⟩
      · simp only [List.map_cons, List.filter_cons]
        rw [if_pos (by simp [hp]), a1, b1]
      · unfold runSessions
        rw [b2]
        exact a2

/-- The file after some sessions of a new writer. -/
theorem fileAfter_content (codec : Codec) (hcodec : Lossless codec) (std : Std Pid) (ss : List Session) (hs : SessionsOk codec std ss) :
    ∃ cs last f bytes, cs.map Chunk.puts = (ss.map Session.puts).filter (fun l => !l.isEmpty) ∧ fileAfter codec std ss = .ok (some bytes) ∧
      Content codec std cs last f (some bytes) := by
  obtain ⟨cs, last, f, w, bytes, h1, h2, -, h4⟩ := sessions_content codec hcodec std ss hs.each [] none none none (.none .nil rfl) {} ⟨rfl, rfl, rfl, rfl⟩
    (.inr hs.first) (by simpa using hs.count)
  refine ⟨cs, last, f, bytes, h1, ?_, by simpa using h4⟩
  unfold fileAfter
  rw [h2]

end Lcio
