import Verif.Spec.WriterUse
import Verif.Sio.SameBytes
import Verif.Lcio.History
import Verif.Util.SplitLemmas
/-
Lemmas for a writer that is used for several files.
-/
namespace Lcio
open Sio Spec Util

/-! ## The buffer of the random access manager does not matter -/

/-- Equal except for the buffer. -/
structure Alike (m n : RaMgr) : Prop where
  map : m.map = n.map
  list : m.list = n.list
  file : m.file = n.file

structure AlikeW (w v : Writer) : Prop where
  stream : w.stream = v.stream
  ra : Alike w.ra v.ra

theorem Alike.eq {m n : RaMgr} (h : Alike m n) : ∃ buf, n = { m with buf := buf } := by
  obtain ⟨a, b, c, d⟩ := m
  obtain ⟨a', b', c', d'⟩ := n
  obtain ⟨h1, h2, h3⟩ := h
  simp only at h1 h2 h3
  subst h1 h2 h3
  exact ⟨_, rfl⟩

theorem Idle.alike {w v : Writer} (h : Idle w) (k : Idle v) : AlikeW w v :=
  ⟨h.stream.trans k.stream.symm, h.map.trans k.map.symm, h.list.trans k.list.symm, h.file.trans k.file.symm⟩

theorem alike_call (codec : Codec) (std : Std Pid) (compress : Bool) (p : Put) (w v : Writer) (h : AlikeW w v) :
    (p.call codec std compress w).1 = (p.call codec std compress v).1 ∧ AlikeW (p.call codec std compress w).2 (p.call codec std compress v).2 := by
  obtain ⟨s, ra⟩ := w
  obtain ⟨s', ra'⟩ := v
  obtain ⟨h1, h2⟩ := h
  simp only at h1 h2
  subst h1
  obtain ⟨buf, rfl⟩ := h2.eq
  cases p with
  | run hd b =>
    simp only [Put.call, Writer.writeRunHeader]
    cases s with
    | none => exact ⟨rfl, rfl, h2⟩
    | some s =>
      simp only
      cases writeJob codec b s ⟨runRecordName, 0, [hd.block], compress⟩ with
      | error e => exact ⟨rfl, rfl, h2⟩
      | ok x => exact ⟨rfl, rfl, rfl, rfl, rfl⟩
  | event hd cols b =>
    simp only [Put.call, Writer.writeEvent]
    cases s with
    | none => exact ⟨rfl, rfl, h2⟩
    | some s =>
      simp only
      cases writeJob codec b.1 s ⟨headerRecordName, 0, [EventHeader.block [] { hd with cols := colHeads cols }], compress⟩ with
      | error e => exact ⟨rfl, rfl, h2⟩
      | ok x =>
        obtain ⟨x1, x2, x3⟩ := x
        simp only
        cases writeJob codec b.2 x3 ⟨eventRecordName, 0, eventBlocks std [] cols, compress⟩ with
        | error e => exact ⟨rfl, rfl, rfl, rfl, rfl⟩
        | ok y => exact ⟨rfl, rfl, rfl, rfl, rfl⟩

theorem alike_one (m : RaMgr) (buf : List Byte) (s : OStream) (name : Str) (b : WBlock) (hw : Writable name [b]) (x : RecordInfo) (s' : OStream) (m' : RaMgr)
    (h : m.writeOne s name b = .ok (x, s', m')) : RaMgr.writeOne { m with buf := buf } s name b = .ok (x, s', m') := by
  unfold RaMgr.writeOne at h ⊢
  rw [writeRecord_buffer name m.buf buf [b] 0 hw]
  exact h

theorem alike_records (m : RaMgr) (buf : List Byte) (s : OStream) (hw : m.map.map ≠ [] → Writable indexName [m.map.block]) :
    (RaMgr.writeRandomAccessRecords { m with buf := buf } s).map (·.1) = (m.writeRandomAccessRecords s).map (·.1) := by
  unfold RaMgr.writeRandomAccessRecords
  by_cases hm : m.map.map = []
  · simp [hm, Except.map]
  · have e : m.map.map.isEmpty = false := by simpa using hm
    simp only [e, Bool.false_eq_true, if_false]
    have : RaMgr.writeOne { m with buf := buf } s indexName m.map.block = m.writeOne s indexName m.map.block := by
      unfold RaMgr.writeOne
      rw [writeRecord_buffer indexName m.buf buf _ 0 (hw hm)]
    rw [this]

theorem alike_close (w v : Writer) (h : AlikeW w v) (hw : w.ra.map.map ≠ [] → Writable indexName [w.ra.map.block]) (w' : Writer) (bytes : List Byte) (hs : w.stream ≠ none)
    (hc : w.close = .ok (w', some bytes)) : ∃ v', v.close = .ok (v', some bytes) ∧ Idle v' := by
  obtain ⟨s, ra⟩ := w
  obtain ⟨s', ra'⟩ := v
  obtain ⟨h1, h2⟩ := h
  simp only at h1 h2
  subst h1
  obtain ⟨buf, rfl⟩ := h2.eq
  cases s with
  | none => exact absurd rfl hs
  | some s =>
    have := alike_records ra buf s hw
    unfold Writer.close at hc ⊢
    simp only at hc ⊢
    cases h3 : ra.writeRandomAccessRecords s with
    | error e => rw [h3] at hc; cases hc
    | ok x =>
      rw [h3] at hc this
      simp only [Except.ok.injEq, Prod.mk.injEq, Option.some.injEq] at hc
      cases h4 : RaMgr.writeRandomAccessRecords { ra with buf := buf } s with
      | error e => rw [h4] at this; cases this
      | ok y =>
        rw [h4] at this
        simp only [Except.map, Except.ok.injEq] at this
        refine ⟨⟨none, y.2.clear⟩, ?_, rfl, rfl, rfl, rfl⟩
        simp only [this, hc.2]

/-! ## Opening a file that was written before -/

theorem putAll_snoc (codec : Codec) (std : Std Pid) (compress : Bool) (ps : List Put) (p : Put) (w v : Writer)
    (h : putAll codec std compress w (ps ++ [p]) = .ok v) : ∃ u, putAll codec std compress w ps = .ok u ∧ p.call codec std compress u = (.ok (), v) := by
  induction ps generalizing w with
  | nil =>
    refine ⟨w, rfl, ?_⟩
    simp only [List.nil_append, putAll] at h
    split at h
    · cases h
    · rename_i w' hw
      cases h
      rw [hw]
  | cons q ps ih =>
    simp only [List.cons_append, putAll] at h ⊢
    split at h
    · cases h
    · rename_i w' hw
      exact ih _ h

theorem runSessions_snoc (codec : Codec) (std : Std Pid) (ss : List Session) (s : Session) (w : Writer) (file : Option (List Byte)) (v : Writer) (out : Option (List Byte))
    (h : runSessions codec std w file ss = .ok (v, out)) : runSessions codec std w file (ss ++ [s]) = s.run codec std v out := by
  induction ss generalizing w file with
  | nil =>
    simp only [runSessions, Except.ok.injEq, Prod.mk.injEq] at h
    obtain ⟨rfl, rfl⟩ := h
    simp only [List.nil_append, runSessions]
    cases s.run codec std w file with
    | error e => rfl
    | ok x => rfl
  | cons t ss ih =>
    simp only [List.cons_append, runSessions] at h ⊢
    cases ht : t.run codec std w file with
    | error e => rw [ht] at h; cases h
    | ok x =>
      rw [ht] at h
      exact ih _ _ h

/-- A session that is going on: `u` is the writer of the specification, which has opened the file after the sessions `ss` and written `ps`. -/
structure Going (codec : Codec) (std : Std Pid) (ss : List Session) (compress : Bool) (ps : List Put) (u : Writer) : Prop where
  ex : ∃ (A T : List Byte) (ra : RaMgr) (last : Option RandomAccess), T.length ≤ 136 ∧ ra.list = last.toList ∧ ra.map = {} ∧ putAll codec std compress ⟨some (over A T), ra⟩ ps = .ok u ∧
    ∀ qs v bytes, putAll codec std compress ⟨some (over A T), ra⟩ qs = .ok v → (∃ v', v.close = .ok (v', some bytes)) →
      fileAfter codec std (ss ++ [⟨compress, qs⟩]) = .ok (some bytes)

theorem Going.start_new (codec : Codec) (std : Std Pid) (compress : Bool) (w : Writer) (hw : Idle w) :
    ∃ u, Going codec std [] compress [] u ∧ AlikeW ⟨some { bytes := [] }, w.ra⟩ u ∧ u.stream ≠ none := by
  refine ⟨⟨some (over [] []), {}⟩, ⟨[], [], {}, none, by simp, rfl, rfl, rfl, ?_⟩, ⟨rfl, hw.map, hw.list, hw.file⟩, by simp⟩
  intro qs v bytes h1 ⟨v', h2⟩
  unfold fileAfter
  simp only [List.nil_append, runSessions, Session.run, Writer.openNew, bind, Except.bind]
  have : ({ bytes := [] } : OStream) = over [] [] := rfl
  rw [this, h1]
  simp only [h2]

theorem Going.start_append (codec : Codec) (hcodec : Lossless codec) (std : Std Pid) (ss : List Session) (hs : SessionsOk codec std ss) (bytes : List Byte)
    (hf : fileAfter codec std ss = .ok (some bytes)) (compress : Bool) (w : Writer) (hw : Idle w) :
    ∃ x ra u, w.ra.initAppend codec { bytes := bytes } = (.ok true, x, ra) ∧ ¬ bytes.length < randomAccessSize ∧ Going codec std ss compress [] u ∧
      AlikeW ⟨some { bytes := bytes, pos := bytes.length - randomAccessSize }, ra⟩ u ∧ u.stream ≠ none := by
  obtain ⟨cs, last, f, v, b, c1, c2, c3, c4⟩ := sessions_content codec hcodec std ss hs.each [] none none none (.none .nil rfl) {} ⟨rfl, rfl, rfl, rfl⟩
    (.inr hs.first) (by simpa using hs.count)
  have hb : b = bytes := by
    unfold fileAfter at hf
    rw [c2] at hf
    simpa using hf
  subst hb
  have hsz : Lcio.sizeOf cs < 2 ^ 63 := by
    rw [List.nil_append] at c4
    have hcp : (cs.flatMap Chunk.puts).length = (allPuts ss).length := by
      have : cs.flatMap Chunk.puts = allPuts ss := by
        have e : ∀ l : List (List Put), (l.filter fun l => !l.isEmpty).flatten = l.flatten := by
          intro l
          induction l with
          | nil => rfl
          | cons a l ih =>
            cases a with
            | nil => simpa using ih
            | cons x a => simp [ih]
        rw [List.flatMap_def, c1, e]
        rfl
      rw [this]
    cases c4 with
    | some h =>
      have := history_size codec std cs last f h (by rw [hcp]; exact hs.count)
      omega
  rw [List.nil_append] at c4
  cases c4 with
  | some h a ha r hr =>
    subst ha
    have hlen : (fileOf (recsOf cs) ++ r.wire).length = (fileOf (recsOf cs)).length + 136 := by
      rw [List.length_append, access_wire r a hr]
    have hover : ({ bytes := fileOf (recsOf cs) ++ r.wire, pos := (fileOf (recsOf cs) ++ r.wire).length - randomAccessSize } : OStream) =
        over (fileOf (recsOf cs)) r.wire := by
      rw [hlen]; unfold over randomAccessSize; simp
    obtain ⟨buf, i1, i2⟩ := initAppend_eq codec std cs last a h hsz r hr w.ra hw.list codec
    obtain ⟨buf', j1, j2⟩ := initAppend_eq codec std cs last a h hsz r hr v.ra c3.list codec
    generalize hia : w.ra.initAppend codec { bytes := fileOf (recsOf cs) ++ r.wire } = x at i1 i2
    obtain ⟨x1, x2, x3⟩ := x
    generalize hja : v.ra.initAppend codec { bytes := fileOf (recsOf cs) ++ r.wire } = y at j1 j2
    obtain ⟨y1, y2, y3⟩ := y
    simp only at i1 i2 j1 j2
    subst i1 i2 j1 j2
    refine ⟨x2, _, ⟨some (over (fileOf (recsOf cs)) r.wire), { v.ra with list := last.toList, file := some a, buf := buf' }⟩, rfl,
      by rw [hlen]; unfold randomAccessSize; omega, ⟨fileOf (recsOf cs), r.wire, { v.ra with list := last.toList, file := some a, buf := buf' }, last,
        by rw [access_wire r a hr], rfl, c3.map, rfl, ?_⟩, ⟨by simp only [hover], hw.map.trans c3.map.symm, rfl, rfl⟩, by simp⟩
    intro qs u' bytes' h1 ⟨v', h2⟩
    unfold fileAfter
    rw [runSessions_snoc _ _ _ _ _ _ _ _ c2]
    unfold Session.run Writer.openAppend
    simp only [bind, Except.bind, hja, c3.stream, if_true]
    rw [if_neg (by rw [hlen]; unfold randomAccessSize; omega), hover]
    simp only [h1, h2]

theorem Going.put {codec : Codec} (hcodec : Lossless codec) {std : Std Pid} {ss : List Session} {compress : Bool} {ps : List Put} {u : Writer}
    (h : Going codec std ss compress ps u) (hps : ∀ p ∈ ps, p.Ok codec std compress) (p : Put) (hp : p.Ok codec std compress) :
    ∃ u', p.call codec std compress u = (.ok (), u') ∧ Going codec std ss compress (ps ++ [p]) u' ∧ u'.stream ≠ none := by
  obtain ⟨A, T, ra, last, t1, t2, h1, h2, h3⟩ := h.ex
  obtain ⟨gs, -, g2⟩ := over_putAll codec hcodec std compress (ps ++ [p]) (by
    intro q hq
    rcases List.mem_append.1 hq with hq | hq
    · exact hps q hq
    · rw [List.mem_singleton.1 hq]; exact hp) A T ra
  obtain ⟨u', k1, k2⟩ := putAll_snoc _ _ _ _ _ _ _ g2
  rw [h2] at k1
  cases k1
  exact ⟨_, k2, ⟨A, T, ra, last, t1, t2, h1, g2, h3⟩, by simp⟩

theorem Going.close {codec : Codec} (hcodec : Lossless codec) {std : Std Pid} {ss : List Session} {compress : Bool} {ps : List Put} {u : Writer}
    (h : Going codec std ss compress ps u) (hps : ∀ p ∈ ps, p.Ok codec std compress) (hn : ps.length < 2 ^ 27) (hr : RunsClose (ps.map Put.key))
    (w : Writer) (hw : AlikeW u w) :
    ∃ bytes w', fileAfter codec std (ss ++ [⟨compress, ps⟩]) = .ok (some bytes) ∧ w.close = .ok (w', some bytes) ∧ Idle w' := by
  obtain ⟨A, T, ra, last, t1, t2, h1, h2, h3⟩ := h.ex
  obtain ⟨gs, g1, g2⟩ := over_putAll codec hcodec std compress ps hps A T ra
  rw [h2] at g2
  simp only [Except.ok.injEq] at g2
  have hmap : u.ra.map = ({} : RunEventMap).addAll ((keysFrom A.length ps gs).map fun e => (e.1, BitVec.ofNat 64 e.2)) := by
    rw [g2, addKeys_eq, h1]
  have hkeys := keysFrom_fst codec std ps gs g1 A.length
  have hwr : Writable indexName [u.ra.map.block] := by
    rw [hmap]
    refine index_writable _ ?_ ?_
    · rw [List.length_map, ← List.length_map (f := (·.1)), hkeys, List.length_map]
      exact hn
    · rw [List.map_map]
      have : ((fun x : RunEvent × W64 => x.1) ∘ fun e : RunEvent × Nat => (e.1, BitVec.ofNat 64 e.2)) = (·.1) := rfl
      rw [this, hkeys]
      exact hr
  have hclose : ∃ u' bytes, u.close = .ok (u', some bytes) := by
    by_cases hne : ps = []
    · subst hne
      cases g1.nil_inv
      rw [g2]
      have hk : ra.addKeys (keysFrom A.length [] []) = ra := rfl
      rw [hk]
      unfold Writer.close RaMgr.writeRandomAccessRecords
      have hm : ra.map.map.isEmpty = true := by rw [h1]; rfl
      simp only [hm, if_true]
      exact ⟨_, _, rfl⟩
    · obtain ⟨c, r, w', -, -, -, -, c5, -⟩ := close_eq codec std A T ra ps gs g1 hne hn hr t1 last t2 h1
      rw [g2]
      exact ⟨_, _, c5⟩
  obtain ⟨u', bytes, k1⟩ := hclose
  obtain ⟨w', l1, l2⟩ := alike_close u w hw (fun _ => hwr) u' bytes (by rw [g2]; simp) k1
  exact ⟨bytes, w', h3 ps u bytes h2 ⟨u', k1⟩, l1, l2⟩

/-- Closing adds something to a file to which something was written. -/
theorem Going.longer {codec : Codec} (hcodec : Lossless codec) {std : Std Pid} {ss : List Session} {compress : Bool} {ps : List Put} {u : Writer}
    (h : Going codec std ss compress ps u) (hps : ∀ p ∈ ps, p.Ok codec std compress) (hn : ps.length < 2 ^ 27) (hr : RunsClose (ps.map Put.key)) (hne : ps ≠ [])
    (w : Writer) (hw : AlikeW u w) (st : OStream) (hst : w.stream = some st) (w' : Writer) (bytes : List Byte) (hc : w.close = .ok (w', some bytes)) :
    st.bytes.length < bytes.length := by
  obtain ⟨A, T, ra, last, t1, t2, h1, h2, h3⟩ := h.ex
  obtain ⟨gs, g1, g2⟩ := over_putAll codec hcodec std compress ps hps A T ra
  rw [h2] at g2
  simp only [Except.ok.injEq] at g2
  obtain ⟨c, r, v, c1, c2, c3, c4, c5, -⟩ := close_eq codec std A T ra ps gs g1 hne hn hr t1 last t2 h1
  rw [← g2] at c5
  have hb : fileAfter codec std (ss ++ [⟨compress, ps⟩]) = .ok (some (A ++ fileOf c.recs ++ r.wire)) := h3 ps u _ h2 ⟨_, c5⟩
  obtain ⟨bytes', w'', k1, k2, -⟩ := h.close hcodec hps hn hr w hw
  rw [hb] at k1
  rw [hc] at k2
  cases k1
  cases k2
  have hs : st = over (A ++ fileOf gs.flatten) (T.drop (fileOf gs.flatten).length) := by
    have := hw.stream
    rw [g2, hst] at this
    simpa using this.symm
  rw [hs]
  have e : c.recs = gs.flatten ++ [c.ix, c.acc] := by rw [← c2]; rfl
  have p1 := wire_pos c.ix
  have p2 := wire_pos c.acc
  have p3 := access_wire r _ c4
  rw [e, fileOf_append]
  simp only [over, List.length_append, List.length_drop, fileOf_cons, fileOf_nil, p3]
  omega

end Lcio
