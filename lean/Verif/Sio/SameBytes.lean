import Verif.Sio.FlatLemmas
/-
Records whose contents look the same on the wire have the same bytes.
-/
namespace Sio
open Spec

theorem set_append (x y : List Byte) (i : Nat) (v : Byte) (h : i < x.length) : (x ++ y).set i v = x.set i v ++ y := List.set_append_left i v h

theorem reverseCopy_sets (src x : List Byte) (off : Nat) :
    reverseCopy src 0 x off 4 1 = (((x.set (off + 3) (src.getD 0 0)).set (off + 2) (src.getD 1 0)).set (off + 1) (src.getD 2 0)).set off (src.getD 3 0) := rfl

theorem patchWord_append (x y r : List Byte) (off w : Nat) (h : patchWord x off w = .ok r) : patchWord (x ++ y) off w = .ok (r ++ y) ∧ r.length = x.length := by
  unfold patchWord at h ⊢
  split at h
  · cases h
  · rename_i hl
    cases h
    rw [if_neg (by rw [List.length_append]; omega), reverseCopy_sets, reverseCopy_sets]
    refine ⟨?_, by simp⟩
    rw [set_append _ _ _ _ (by omega), set_append _ _ _ _ (by simp; omega), set_append _ _ _ _ (by simp; omega), set_append _ _ _ _ (by simp; omega)]

theorem patchGroup_append (w : Nat) (g : List (Nat × Nat)) (x y r : List Byte) (h : patchGroup w g x = .ok r) :
    patchGroup w g (x ++ y) = .ok (r ++ y) ∧ r.length = x.length := by
  induction g generalizing x with
  | nil => cases h; exact ⟨rfl, rfl⟩
  | cons e g ih =>
    unfold patchGroup at h ⊢
    cases h1 : patchWord x e.2 w with
    | error er => rw [h1] at h; cases h
    | ok b =>
      rw [h1] at h
      obtain ⟨e1, e2⟩ := patchWord_append x y b _ _ h1
      obtain ⟨e3, e4⟩ := ih b h
      rw [e1]
      exact ⟨e3, e4.trans e2⟩

theorem writeRelocLoop_append (pa : List (Nat × Nat)) (fuel m : Nat) (es : List (Nat × Nat)) (x y r : List Byte) (h : writeRelocLoop pa fuel m es x = .ok r) :
    writeRelocLoop pa fuel m es (x ++ y) = .ok (r ++ y) ∧ r.length = x.length := by
  induction fuel generalizing m es x with
  | zero =>
    cases es with
    | nil => cases h; exact ⟨rfl, rfl⟩
    | cons e es => cases h
  | succ fuel ih =>
    cases es with
    | nil => cases h; exact ⟨rfl, rfl⟩
    | cons e es =>
      simp only [writeRelocLoop] at h ⊢
      cases h0 : mapFind e.1 pa with
      | none =>
        rw [h0] at h
        simp only at h ⊢
        exact ih _ _ _ h
      | some off =>
        rw [h0] at h
        simp only at h ⊢
        cases h1 : patchWord x off m with
        | error er => rw [h1] at h; cases h
        | ok b =>
          rw [h1] at h
          simp only at h
          obtain ⟨e1, e2⟩ := patchWord_append x y b _ _ h1
          rw [e1]
          simp only
          cases h2 : patchGroup m ((e :: es).takeWhile fun z => z.1 ≤ e.1) b with
          | error er => rw [h2] at h; cases h
          | ok b' =>
            rw [h2] at h
            simp only at h
            obtain ⟨e3, e4⟩ := patchGroup_append m _ b y b' h2
            rw [e3]
            obtain ⟨e5, e6⟩ := ih _ _ _ h
            exact ⟨e5, e6.trans (e4.trans e2)⟩

/-- The bytes of a record before lengths are filled in. -/
def draft (name : List Byte) (O : W32) (bs : List WBlock) : List Item :=
  [word (headerLen name), word recordMarker, word O.toNat] ++ word recordMarker :: word recordMarker :: (([word name.length, chars name] : List Item) ++ blocksItems bs)

/-- `write_record` in a form in which the bytes depend on nothing but the bytes before pointers are set, and the tables of pointers. -/
theorem writeRecord_draft (name buf : List Byte) (bs : List WBlock) (opts : W32) (hname : validRecordName name = true) (hb : ∀ b ∈ bs, blockFits b)
    (hlen : headerLen name + dataLen bs < 2 ^ 32) :
    ∃ r, writeRelocLoop (tagTable [] (offsets 0 (draft name (setCompression opts false) bs)))
        (ptrTable [] (offsets 0 (draft name (setCompression opts false) bs))).length 1 (ptrTable [] (offsets 0 (draft name (setCompression opts false) bs)))
        (bytesOf ((draft name (setCompression opts false) bs).map blank)) = .ok r ∧
      writeRecord name buf bs opts =
        .ok ({ headerLength := headerLen name, options := setCompression opts false, dataLength := dataLen bs,
               uncompressedLength := dataLen bs, name := name },
             r.take 12 ++ bigEndian 4 (dataLen bs) ++ bigEndian 4 (dataLen bs) ++ r.drop 20) := by
  have hn64 : name.length ≤ 64 := by
    unfold validRecordName at hname
    split at hname
    · cases hname
    · split at hname
      · cases hname
      · omega
  have hnm : name.length % 2 ^ 32 = name.length := Nat.mod_eq_of_lt (by omega)
  have hp := padding_lt name.length
  generalize hO : setCompression opts false = O
  obtain ⟨d1, r1, w1⟩ := (WInv.start buf).run [.arr 4 [recordMarker], .arr 4 [recordMarker], .arr 4 [O.toNat]]
    (by intro i hi; simp only [List.mem_cons, List.not_mem_nil, or_false] at hi; rcases hi with rfl | rfl | rfl <;> simp [fits])
  obtain ⟨d2, r2, w2⟩ := w1.run [.arr 4 [recordMarker], .arr 4 [recordMarker], .arr 4 [name.length], .arr 1 (name.map UInt8.toNat)]
    (by
      intro i hi; simp only [List.mem_cons, List.not_mem_nil, or_false] at hi
      rcases hi with rfl | rfl | rfl | rfl <;> simp [fits]
      omega)
  have hc1 : d1.cur = 12 := by rw [w1.cur]; simp [bytesOf_length, itemLen, itemBytes, wireArray_length, padding]
  have hc2 : d2.cur = headerLen name := by
    rw [w2.cur, bytesOf_append, List.length_append, ← w1.cur, hc1]
    simp only [bytesOf_length, List.map_cons, List.map_nil, List.sum_cons, List.sum_nil]
    have e1 : ∀ n, itemLen (.arr 4 [n]) = 4 := itemLen_word
    have e2 : itemLen (.arr 1 (name.map UInt8.toNat)) = name.length + padding name.length := itemLen_chars name
    rw [e1, e1, e2]; unfold headerLen; omega
  have hh : d2.cur % 2 ^ 32 = headerLen name := by rw [hc2]; exact Nat.mod_eq_of_lt (by omega)
  have w2' : WInv d2 ([] ++ .arr 4 [recordMarker] :: [.arr 4 [recordMarker], .arr 4 [O.toNat], .arr 4 [recordMarker], .arr 4 [recordMarker],
    .arr 4 [name.length], .arr 1 (name.map UInt8.toNat)]) := by simpa using w2
  obtain ⟨d3, d4, d5, r3, r4, r5, w5⟩ := w2'.patch (headerLen name)
  obtain ⟨d6, r6, w6⟩ := writeBlockList_eq w5 bs hb
  have w6' : WInv d6 (draft name O bs) := by unfold draft; simpa [word, chars] using w6
  have hTot : (bytesOf (draft name O bs)).length = headerLen name + dataLen bs := by
    unfold draft
    simp only [bytesOf_append, bytesOf_cons, List.length_append, bytesOf_nil, List.length_nil]
    have := fun n => itemLen_word n
    unfold itemLen at this
    have hc := itemLen_chars name
    unfold itemLen at hc
    simp only [this, hc, headerLen, dataLen]
    omega
  have hcur6 : d6.cur = headerLen name + dataLen bs := by rw [w6'.cur, hTot]
  obtain ⟨num, τ, t1, -⟩ := relocate_eq { d6 with buf := bytesOf ((draft name O bs).map blank) } (draft name O bs) [] [] 0 rfl (by simp) w6'.pa w6'.pt (by omega)
  simp only [WDev.relocate, w6'.pa, w6'.pt] at t1
  cases hr : writeRelocLoop (tagTable [] (offsets 0 (draft name O bs))) (ptrTable [] (offsets 0 (draft name O bs))).length 1
      (ptrTable [] (offsets 0 (draft name O bs))) (bytesOf ((draft name O bs).map blank)) with
  | error e => rw [hr] at t1; cases t1
  | ok r =>
  refine ⟨r, rfl, ?_⟩
  obtain ⟨hap, hrl⟩ := writeRelocLoop_append _ _ _ _ _ (d6.buf.drop d6.cur) _ hr
  have hbuf : d6.buf = bytesOf ((draft name O bs).map blank) ++ d6.buf.drop d6.cur := by rw [← w6'.bytes, List.take_append_drop]
  have hrlen : r.length = d6.cur := by
    rw [hrl, ← w6'.bytes, List.length_take, Nat.min_eq_left w6'.le]
  have r7 : d6.relocate = .ok { d6 with buf := r ++ d6.buf.drop d6.cur, pointedAt := [], pointerTo := [] } := by
    unfold WDev.relocate
    rw [w6'.pa, w6'.pt, hbuf, hap]
    rw [← hbuf]
  have ht1 : r = bytesOf (withWords τ 0 (draft name O bs)) := by
    rw [hr] at t1
    simpa using t1
  have hww : withWords τ 0 (draft name O bs) = [word (headerLen name), word recordMarker, word O.toNat] ++ word recordMarker :: word recordMarker ::
      withWords τ 20 (([word name.length, chars name] : List Item) ++ blocksItems bs) := by
    have e : ∀ b i is, isRef i = false → withWords τ b (i :: is) = i :: withWords τ (b + itemLen i) is := by
      intro b i is hi
      cases i <;> first | rfl | cases hi
    unfold draft
    simp only [List.cons_append, List.nil_append]
    rw [e _ (word _) _ rfl, e _ (word _) _ rfl, e _ (word _) _ rfl, e _ (word _) _ rfl, e _ (word _) _ rfl]
    simp only [itemLen_word]
  rw [hww] at ht1
  generalize hM : withWords τ 20 (([word name.length, chars name] : List Item) ++ blocksItems bs) = M at ht1
  generalize hH : ([word (headerLen name), word recordMarker, word O.toNat] : List Item) = H at ht1
  have hHlen : (bytesOf H).length = 12 := by rw [← hH, bytesOf_length]; simp [itemLen_word]
  have hsplit : r = bytesOf H ++ (bigEndian 4 recordMarker ++ (bigEndian 4 recordMarker ++ bytesOf M)) := by
    rw [ht1]; simp [bytesOf_append, bytesOf_cons, itemBytes, word, wireArray_one]
  have htake : r.take 12 = bytesOf H := by rw [hsplit]; exact List.take_left' hHlen
  have hdrop : r.drop 20 = bytesOf M := by
    rw [hsplit, ← List.append_assoc, ← List.append_assoc]
    exact List.drop_left' (by simp [hHlen, bigEndian_length])
  have h12 : 12 ≤ r.length := by rw [hsplit, List.length_append, hHlen]; omega
  obtain ⟨d8, p1, p2, p3, p4, p5, p6⟩ := WDev.patch { d6 with buf := r ++ d6.buf.drop d6.cur, pointedAt := [], pointerTo := [] } (bytesOf H)
    (bigEndian 4 recordMarker ++ bytesOf M) recordMarker (dataLen bs) d6.cur (by simp only [List.length_append]; omega)
    (by
      simp only
      rw [List.take_left' hrlen, hsplit]
      simp only [List.append_assoc])
  obtain ⟨d9, q1, q2, q3, q4, q5, q6⟩ := WDev.patch d8 (bytesOf H ++ bigEndian 4 (dataLen bs)) (bytesOf M) recordMarker (dataLen bs) d6.cur p3
    (by rw [p2]; simp)
  unfold writeRecord
  rw [if_neg (by simp [hname])]
  have hbody : writeRecordBody name buf bs opts =
      .ok ({ headerLength := headerLen name, options := O, dataLength := dataLen bs,
             uncompressedLength := dataLen bs, name := name }, r.take 12 ++ bigEndian 4 (dataLen bs) ++ bigEndian 4 (dataLen bs) ++ r.drop 20) := by
    unfold writeRecordBody writeBlocks
    simp only [hO, hnm, List.take_length]
    rw [r1]
    simp only [bind, Except.bind]
    rw [r2]
    simp only [hh]
    have e3 : d2.seek 0 = .ok d3 := r3
    rw [e3]
    simp only
    rw [r4]
    simp only
    rw [show d4.seek (headerLen name) = .ok d5 by rw [← hc2]; exact r5]
    simp only
    rw [r6]
    simp only
    rw [r7]
    simp only
    have e8 : WDev.seek { d6 with buf := r ++ d6.buf.drop d6.cur, pointedAt := [], pointerTo := [] } d1.cur =
        .ok { d6 with buf := r ++ d6.buf.drop d6.cur, pointedAt := [], pointerTo := [], cur := (bytesOf H).length } := by
      unfold WDev.seek
      rw [if_neg (by simp only [List.length_append]; omega), hc1, hHlen]
    rw [e8]
    simp only
    rw [hcur6, show headerLen name + dataLen bs - headerLen name = dataLen bs by omega, Nat.mod_eq_of_lt (by omega), ← hcur6, p1]
    simp only
    have e9 : d8 = { d8 with cur := (bytesOf H ++ bigEndian 4 (dataLen bs)).length } := by
      rw [show (bytesOf H ++ bigEndian 4 (dataLen bs)).length = d8.cur by simp [p4, bigEndian_length]]
    rw [e9, q1]
    simp only [pure, Except.pure]
    congr 2
    rw [htake, hdrop]
    unfold resize
    rw [q2]
    have : d6.cur - d9.buf.length = 0 := by omega
    rw [this]
    simp [zeros]
  rw [hbody]; rfl

theorem tagTable_refs (m : List (Nat × Nat)) (ois : List (Nat × Item)) : tagTable m (refs ois) = tagTable m ois := by
  induction ois generalizing m with
  | nil => rfl
  | cons x ois ih =>
    obtain ⟨o, i⟩ := x
    unfold refs at ih ⊢
    cases i with
    | tag t => rw [List.filter_cons, if_pos (by rfl)]; simp only [tagTable]; rw [ih]
    | ptr t => rw [List.filter_cons, if_pos (by rfl)]; simp only [tagTable]; rw [ih]
    | arr s v => rw [List.filter_cons, if_neg (by simp [isRef])]; simp only [tagTable]; rw [ih]
    | bad => rw [List.filter_cons, if_neg (by simp [isRef])]; simp only [tagTable]; rw [ih]

theorem ptrTable_refs (m : List (Nat × Nat)) (ois : List (Nat × Item)) : ptrTable m (refs ois) = ptrTable m ois := by
  induction ois generalizing m with
  | nil => rfl
  | cons x ois ih =>
    obtain ⟨o, i⟩ := x
    unfold refs at ih ⊢
    cases i with
    | tag t => rw [List.filter_cons, if_pos (by rfl)]; simp only [ptrTable]; rw [ih]
    | ptr t => rw [List.filter_cons, if_pos (by rfl)]; simp only [ptrTable]; rw [ih]
    | arr s v => rw [List.filter_cons, if_neg (by simp [isRef])]; simp only [ptrTable]; rw [ih]
    | bad => rw [List.filter_cons, if_neg (by simp [isRef])]; simp only [ptrTable]; rw [ih]

theorem flat_blank (is : List Item) : flat (is.map blank) = (flat is).map blank := by
  induction is with
  | nil => rfl
  | cons i is ih =>
    rw [List.map_cons, flat_cons, flat_cons, List.map_append, ih]
    congr 1
    cases i with
    | arr sz v =>
      rcases flatItem_arr sz v with ⟨h, e⟩ | ⟨b, rfl, rfl, e⟩ | ⟨h, h1, e⟩
      · rw [show blank (.arr sz v) = .arr sz v from rfl, e, List.map_map]; rfl
      · rw [show blank (.arr 1 [b]) = .arr 1 [b] from rfl, e]; rfl
      · rw [show blank (.arr sz v) = .arr sz v from rfl, e]; rfl
    | ptr a => rfl
    | tag a => rfl
    | bad => rfl

/-- Blocks that look the same on the wire give the same record. -/
theorem writeRecord_same (name buf : List Byte) (bs cs : List WBlock) (opts : W32) (hw : Writable name bs) (h : SameBlocks bs cs) :
    writeRecord name buf cs opts = writeRecord name buf bs opts := by
  have hflat := flat_blocks bs cs h
  have hdl : dataLen cs = dataLen bs := by unfold dataLen; rw [← bytesOf_flat, hflat, bytesOf_flat]
  have hbc : ∀ c ∈ cs, blockFits c := by
    have hb := hw.blocks
    clear hflat hdl hw
    induction h with
    | nil => intro b hb; cases hb
    | cons hs _ ih =>
      intro x hx
      rcases List.mem_cons.1 hx with rfl | hx
      · exact hs.fits (hb _ (by simp))
      · exact ih (fun y hy => hb y (by simp [hy])) x hx
  obtain ⟨r, e1, e2⟩ := writeRecord_draft name buf bs opts hw.nameOk hw.blocks hw.size
  obtain ⟨r', f1, f2⟩ := writeRecord_draft name buf cs opts hw.nameOk hbc (by rw [hdl]; exact hw.size)
  generalize setCompression opts false = O at *
  have hd : flat (draft name O cs) = flat (draft name O bs) := by
    unfold draft
    simp only [List.cons_append, List.nil_append, flat_cons, hflat]
  have hr : refs (offsets 0 (draft name O cs)) = refs (offsets 0 (draft name O bs)) := by rw [← refs_flat, hd, refs_flat]
  have ht : tagTable [] (offsets 0 (draft name O cs)) = tagTable [] (offsets 0 (draft name O bs)) := by rw [← tagTable_refs, hr, tagTable_refs]
  have hp : ptrTable [] (offsets 0 (draft name O cs)) = ptrTable [] (offsets 0 (draft name O bs)) := by rw [← ptrTable_refs, hr, ptrTable_refs]
  have hb : bytesOf ((draft name O cs).map blank) = bytesOf ((draft name O bs).map blank) := by
    rw [← bytesOf_flat, flat_blank, hd, ← flat_blank, bytesOf_flat]
  rw [ht, hp, hb, e1, Except.ok.injEq] at f1
  subst f1
  rw [e2, f2, hdl]

/-- The contents of the buffer before do not matter. -/
theorem writeRecord_buffer (name buf buf' : List Byte) (bs : List WBlock) (opts : W32) (hw : Writable name bs) :
    writeRecord name buf' bs opts = writeRecord name buf bs opts := by
  obtain ⟨r, e1, e2⟩ := writeRecord_draft name buf bs opts hw.nameOk hw.blocks hw.size
  obtain ⟨r', f1, f2⟩ := writeRecord_draft name buf' bs opts hw.nameOk hw.blocks hw.size
  rw [e1, Except.ok.injEq] at f1
  subst f1
  rw [e2, f2]

end Sio
