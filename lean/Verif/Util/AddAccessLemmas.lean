import Verif.Util.AddAccess
import Verif.Lcio.RecreateLemmas
/-
Lemmas about the program `addRandomAccess`.
-/
namespace Util
open Sio Spec Lcio

theorem diskSet_same (disk : List (Str × List Byte)) (hd : (disk.map (·.1)).Nodup) (name : Str) (bytes : List Byte) (h : disk.lookup name = some bytes) :
    diskSet disk name bytes = disk := by
  unfold diskSet
  induction disk with
  | nil => rfl
  | cons f disk ih =>
    obtain ⟨n, b⟩ := f
    simp only [List.map_cons, List.nodup_cons] at hd
    rw [List.lookup_cons] at h
    by_cases hn : n = name
    · subst hn
      simp only [beq_self_eq_true] at h
      cases h
      simp only [List.map_cons, if_true, List.cons.injEq, true_and]
      rw [List.map_congr_left (g := id) (by
        intro x hx
        rw [if_neg]
        · rfl
        · rintro rfl
          exact hd.1 (List.mem_map.2 ⟨x, hx, rfl⟩))]
      exact List.map_id _
    · simp only [List.map_cons, if_neg hn, List.cons.injEq, true_and]
      rw [show (name == n) = false from beq_eq_false_iff_ne.2 (fun e => hn e.symm)] at h
      exact ih hd.2 h

/-- Opening and closing a file that was written in some sessions. -/
theorem keep_content (codec' codec : Codec) (std : Std Pid) (cs : List Chunk) (last f : Option RandomAccess) (bytes : List Byte)
    (hc : Content codec std cs last f (some bytes)) (hsz : Lcio.sizeOf cs < 2 ^ 63) (w : Writer) (hw : Idle w) :
    ∃ w1 w2, openAppendKeep codec' w (some bytes) = (.ok (), w1) ∧ w1.close = .ok (w2, some bytes) ∧ Idle w2 := by
  obtain ⟨stream, ra⟩ := w
  obtain ⟨w1, w2, w3, w4⟩ := hw
  simp only at w1 w2 w3 w4
  subst w1
  cases hc with
  | some h a ha r hr =>
    subst ha
    obtain ⟨buf, i1, i2⟩ := initAppend_eq codec std cs last a h hsz r hr ra w3 codec'
    unfold openAppendKeep
    generalize hia : ra.initAppend codec' { bytes := fileOf (recsOf cs) ++ r.wire } = x at i1 i2
    obtain ⟨x1, x2, x3⟩ := x
    simp only at i1 i2
    subst i1 i2
    simp only [hia, if_true]
    have hlen : (fileOf (recsOf cs) ++ r.wire).length = (fileOf (recsOf cs)).length + 136 := by
      rw [List.length_append, access_wire r a hr]
    rw [if_neg (by rw [hlen]; unfold randomAccessSize; omega)]
    refine ⟨_, ⟨none, RaMgr.clear { ra with list := last.toList, file := some a, buf := buf }⟩, rfl, ?_, rfl, rfl, rfl, rfl⟩
    · unfold Writer.close RaMgr.writeRandomAccessRecords
      simp [w2]

theorem keep_short (codec : Codec) (w : Writer) (bytes : List Byte) (h : bytes.length < 136) : openAppendKeep codec w (some bytes) = (.error .ioException, w) := by
  have h1 : seekStream { bytes := bytes } (-(randomAccessSize : Int)) = (.error .ioException, { bytes := bytes, pos := bytes.length }) := by
    unfold seekStream
    rw [if_neg (by simp), if_pos (by decide), if_neg (by simp), if_pos (by unfold randomAccessSize; simp only; omega)]
  unfold openAppendKeep RaMgr.initAppend RaMgr.readAccessAt
  simp only [h1]

/-- The other name of the record. -/
def ignored (r : Rec) : Rec := { r with name := str "LCIORandomIGNORE" }

theorem ignored_parts (r : Rec) (h : r.name = accessName) : ∃ A B, A.length = 24 ∧ r.wire = A ++ accessName ++ B ∧ (ignored r).wire = A ++ str "LCIORandomIGNORE" ++ B := by
  obtain ⟨name, opts, full, data⟩ := r
  simp only at h
  subst h
  refine ⟨bytesOf [word 40, word 0xabadcafe, word opts.toNat, word data.length, word full, word 16], data ++ List.replicate (padding data.length) 0, ?_, ?_, ?_⟩
  · rw [bytesOf_length]
    simp [itemLen_word]
  · have : bytesOf [chars accessName] = accessName := by decide
    simp only [Rec.wire, Rec.header, headerItems]
    rw [show ∀ a b c d e f g : Item, [a, b, c, d, e, f, g] = [a, b, c, d, e, f] ++ [g] from fun _ _ _ _ _ _ _ => rfl, bytesOf_append, this]
    simp [show headerLen accessName = 40 by decide, show accessName.length = 16 by decide]
  · have : bytesOf [chars (str "LCIORandomIGNORE")] = str "LCIORandomIGNORE" := by decide
    simp only [ignored, Rec.wire, Rec.header, headerItems]
    rw [show ∀ a b c d e f g : Item, [a, b, c, d, e, f, g] = [a, b, c, d, e, f] ++ [g] from fun _ _ _ _ _ _ _ => rfl, bytesOf_append, this]
    simp [show headerLen (str "LCIORandomIGNORE") = 40 by decide, show (str "LCIORandomIGNORE").length = 16 by decide]

theorem forceIgnore_eq (pre : List Byte) (r : Rec) (a : RandomAccess) (h : IsAccess r a) : forceIgnore (pre ++ r.wire) = pre ++ (ignored r).wire := by
  obtain ⟨A, B, h1, h2, h3⟩ := ignored_parts r h.named
  have hl := access_wire r a h
  have hB : B.length = 96 := by
    rw [h2] at hl
    simp only [List.length_append, h1, show accessName.length = 16 by decide] at hl
    omega
  have h16 : accessName.length = 16 := by decide
  have h16' : (str "LCIORandomIGNORE").length = 16 := by decide
  have e : pre ++ r.wire = (pre ++ A) ++ (accessName ++ B) := by rw [h2]; simp
  have hn : (pre ++ r.wire).length - 112 = (pre ++ A).length := by
    rw [e]
    simp only [List.length_append, hB, h16]
    omega
  unfold forceIgnore
  simp only
  rw [if_neg (show ¬ (pre ++ r.wire).length < 112 by simp only [List.length_append]; omega), hn]
  have hg : ((pre ++ r.wire).drop (pre ++ A).length).take 16 = accessName := by
    rw [e, List.drop_left, ← h16, List.take_left]
  rw [hg, if_pos (.inl rfl), h16, if_neg (by omega), Nat.add_sub_cancel]
  unfold overwrite resize
  rw [h16', h3, e]
  rw [show (pre ++ A ++ (accessName ++ B)).take (pre ++ A).length = pre ++ A from List.take_left,
    show (pre ++ A).length - (pre ++ A ++ (accessName ++ B)).length = 0 by simp only [List.length_append]; omega,
    show (pre ++ A ++ (accessName ++ B)).drop ((pre ++ A).length + 16) = B by
      rw [← List.drop_drop, List.drop_left, ← h16, List.drop_left]]
  simp [zeros]

theorem ignored_ok (r : Rec) (a : RandomAccess) (h : IsAccess r a) : (ignored r).Ok ∧ NotHeader (ignored r) ∧ (ignored r).name ≠ eventRecordName ∧ (ignored r).name ≠ accessName ∧
    (ignored r).wire.length = 136 := by
  have hw : (ignored r).wire.length = 136 := by
    rw [wire_length]
    show headerLen (str "LCIORandomIGNORE") + r.data.length + padding r.data.length = 136
    rw [h.len]; decide
  refine ⟨⟨by show (str "LCIORandomIGNORE").length ≤ 64; decide, by rw [hw]; decide, h.ok.full, h.ok.aligned⟩, ?_, ?_, ?_, hw⟩
  · show (str "LCIORandomIGNORE" ≠ headerRecordName ∧ str "LCIORandomIGNORE" ≠ runRecordName)
    decide
  · show str "LCIORandomIGNORE" ≠ eventRecordName
    decide
  · show str "LCIORandomIGNORE" ≠ accessName
    decide

/-- Looking for the last record of a file where the file has a record with another name. -/
theorem readAccessAt_other (m : RaMgr) (pre : List Byte) (r : Rec) (hr : r.Ok) (hn : r.name ≠ accessName) (hl : r.wire.length = 136) :
    ∃ buf, m.readAccessAt (ready (pre ++ r.wire) 0) (-(randomAccessSize : Int)) = (.ok false, ready (pre ++ r.wire) (pre ++ r.wire).length, { m with buf := buf }) := by
  obtain ⟨buf, e⟩ := readAny_eq m pre [] r hr
  refine ⟨buf, ?_⟩
  unfold RaMgr.readAccessAt
  rw [seekStream_end _ _ _ _ (by rw [hl]; rfl) (by decide)]
  simp only [List.append_nil] at e
  unfold RaMgr.readAccess
  simp only [e]
  rw [if_pos (show (r.info pre.length).name ≠ accessName from hn), List.length_append]

/-- The loop finds nothing in a file with events only. -/
theorem recreate_events {codec : Codec} {std : Std Pid} {ps : List Put} {rs : List Rec} (h : Layout codec std ps rs) (he : ∀ p ∈ ps, p.isEvent = true) :
    ∀ (fuel : Nat) (_ : ps.length < fuel) (m : RaMgr) (pre : List Byte) (xs : List Rec) (_ : ∀ r ∈ xs, r.Ok ∧ NotHeader r),
    ∃ buf q, RaMgr.recreateLoop codec fuel m (ready (pre ++ fileOf (xs ++ rs)) pre.length) = (.ok (), ready (pre ++ fileOf (xs ++ rs)) q, { m with buf := buf }) := by
  induction h with
  | nil =>
    intro fuel hf m pre xs hx
    obtain ⟨fuel, rfl⟩ : ∃ f, fuel = f + 1 := ⟨fuel - 1, by omega⟩
    refine ⟨m.buf, (pre ++ fileOf xs).length, ?_⟩
    rw [List.append_nil]
    exact recreate_end codec m pre xs hx fuel
  | other r ps rs hr h1 h2 h3 h ih =>
    intro fuel hf m pre xs hx
    have := ih he fuel hf m pre (xs ++ [r]) (by
      intro y hy
      rcases List.mem_append.1 hy with hy | hy
      · exact hx y hy
      · rw [List.mem_singleton.1 hy]; exact ⟨hr, h2, h1⟩)
    simpa using this
  | put p g ps rs hp h ih =>
    intro fuel hf m pre xs hx
    obtain ⟨fuel, rfl⟩ : ∃ f, fuel = f + 1 := ⟨fuel - 1, by omega⟩
    cases p with
    | run hd buf =>
      have := he (.run hd buf) (by simp)
      cases this
    | event hd cols buf0 =>
      obtain ⟨r, r', rfl, h1, h2⟩ := hp
      obtain ⟨i2, b2, w2, p2⟩ := h2.plain
      have step := recreate_read codec m pre xs hx r r' h1.ok h2.ok (by rw [NotHeader, h1.named]; simp) rs h.ok fuel _ p2 none (.inr (.inr ⟨h2.named, rfl⟩))
      obtain ⟨buf, q, e⟩ := ih (fun p hp => he p (by simp [hp])) fuel (by simp only [List.length_cons] at hf; omega) { m with buf := r'.header ++ r'.data } (pre ++ fileOf (xs ++ [r, r'])) [] (by simp)
      have hB : pre ++ fileOf (xs ++ [r, r']) ++ fileOf ([] ++ rs) = pre ++ fileOf (xs ++ ([r, r'] ++ rs)) := by
        simp [fileOf_append, fileOf_cons, fileOf_nil]
      rw [hB] at e
      refine ⟨buf, q, ?_⟩
      simp only [List.cons_append, List.nil_append] at e ⊢
      rw [step]
      simp only [Option.toList_none, List.map_nil]
      show RaMgr.recreateLoop codec fuel { m with buf := r'.header ++ r'.data } _ = _
      rw [e]

theorem layout_length {codec : Codec} {std : Std Pid} {ps : List Put} {rs : List Rec} (h : Layout codec std ps rs) : ps.length ≤ rs.length := by
  induction h with
  | nil => simp
  | other => simp only [List.length_cons]; omega
  | put p g ps rs hp h ih =>
    have : 1 ≤ g.length := by
      cases p with
      | run => obtain ⟨r, rfl, -⟩ := hp; simp
      | event => obtain ⟨r, r', rfl, -⟩ := hp; simp
    simp only [List.length_cons, List.length_append]
    omega

/-- Closing a file that was made empty, with a map that was made from entries. -/
theorem close_emptied (codec : Codec) (std : Std Pid) (ra : RaMgr) (es : List (RunEvent × W64)) (hm : ra.map = ({} : RunEventMap).addAll es) (hl : ra.list = []) (hn : es.length < 2 ^ 27)
    (hk : RunsClose (es.map (·.1))) : ∃ w bytes, Writer.close ⟨some { bytes := [] }, ra⟩ = .ok (w, some bytes) ∧ ∃ rs, bytes = fileOf rs ∧ Layout codec std [] rs := by
  obtain ⟨map, list, file, buf⟩ := ra
  simp only at hm hl
  subst hm hl
  unfold Writer.close RaMgr.writeRandomAccessRecords
  simp only
  by_cases hem : (({} : RunEventMap).addAll es).map.isEmpty = true
  · rw [if_pos hem]
    exact ⟨_, _, rfl, [], rfl, .nil⟩
  · rw [if_neg hem]
    obtain ⟨ix, buf1, hix, e1⟩ := over_writeIndex { map := ({} : RunEventMap).addAll es, list := [], file := file, buf := buf } [] [] es hn hk rfl
    rw [show ({ bytes := [] } : OStream) = over [] [] from rfl]
    simp only at e1
    rw [e1]
    simp only
    generalize hra : ({ ({ map := ({} : RunEventMap).addAll es, list := [], file := file, buf := buf1 } : RaMgr).createFromEventMap with
        indexLoc := _, firstLoc := _, prevLoc := _ } : RandomAccess) = a
    obtain ⟨acc, buf2, hacc, e2⟩ := over_writeAccess { map := ({} : RunEventMap).addAll es, list := [] ++ [a], file := file, buf := buf1 } ([] ++ ix.wire) (([] : List Byte).drop ix.wire.length) a
    rw [e2]
    simp only
    generalize hf : ({ RaMgr.createFileRecord { map := ({} : RunEventMap).addAll es, list := [] ++ [a], file := file, buf := buf2 } with
       nextLoc := _, prevLoc := _ } : RandomAccess) = f
    obtain ⟨fr, buf3, hfr, e3⟩ := over_writeAccess { map := ({} : RunEventMap).addAll es, list := [] ++ [a], file := some f, buf := buf2 }
      ([] ++ ix.wire ++ acc.wire) ((([] : List Byte).drop ix.wire.length).drop acc.wire.length) f
    rw [e3]
    have o1 := index_other hix
    have o2 := access_other hacc
    have o3 := access_other hfr
    refine ⟨_, _, rfl, [ix, acc, fr], ?_, .other ix _ _ hix.ok o1.1 o1.2.1 o1.2.2 (.other acc _ _ hacc.ok o2.1 o2.2.1 o2.2.2 (.other fr _ _ hfr.ok o3.1 o3.2.1 o3.2.2 .nil))⟩
    simp [over, fileOf_cons, fileOf_nil]

end Util
