import Verif.Sio.EventLemmas
import Verif.Spec.Record
/-
Closed form of `write_blocks` and `write_record`.
-/
namespace Sio
open Spec

/-- The device has written these items from offset 0 on and not yet relocated. -/
structure WInv (d : WDev) (is : List Item) : Prop where
  cur : d.cur = (bytesOf is).length
  le : d.cur ≤ d.buf.length
  bytes : d.buf.take d.cur = bytesOf (is.map blank)
  pa : d.pointedAt = tagTable [] (offsets 0 is)
  pt : d.pointerTo = ptrTable [] (offsets 0 is)

theorem WInv.start (buf : List Byte) : WInv { buf := buf } [] :=
  ⟨rfl, Nat.zero_le _, by simp [bytesOf_nil], rfl, rfl⟩

theorem WInv.run {d : WDev} {is : List Item} (h : WInv d is) (js : List Item) (hf : ∀ i ∈ js, fits i) :
    ∃ d', d.run js = .ok d' ∧ WInv d' (is ++ js) := by
  obtain ⟨d', h1, hcur, hle, _, ht, _, hpa, hpt⟩ := WDev.run_eq d js h.le hf
  refine ⟨d', h1, ?_, hle, ?_, ?_, ?_⟩
  · rw [hcur, h.cur, bytesOf_append, List.length_append]
  · rw [ht, h.bytes, List.map_append, bytesOf_append]
  · rw [hpa, h.pa, offsets_append, tagTable_append, Nat.zero_add, h.cur]
  · rw [hpt, h.pt, offsets_append, ptrTable_append, Nat.zero_add, h.cur]

/-- Overwriting one word. -/
theorem WDev.patch (d : WDev) (pre mid : List Byte) (w v : Nat) (n : Nat)
    (hn : n ≤ d.buf.length) (ht : d.buf.take n = pre ++ bigEndian 4 w ++ mid) :
    ∃ d', (WDev.data { d with cur := pre.length } 4 [v]) = .ok d' ∧ d'.buf.take n = pre ++ bigEndian 4 v ++ mid ∧
      n ≤ d'.buf.length ∧ d'.cur = pre.length + 4 ∧ d'.pointedAt = d.pointedAt ∧ d'.pointerTo = d.pointerTo := by
  have hlen : pre.length + 4 + mid.length = n := by
    have := congrArg List.length ht
    rw [List.length_take, Nat.min_eq_left hn] at this
    simp only [List.length_append, bigEndian_length] at this
    omega
  have hd := WDev.data_eq { d with cur := pre.length } 4 [v] (by dsimp only; omega) (by simp)
  rw [wireArray_one, bigEndian_length] at hd
  refine ⟨_, hd, ?_, ?_, rfl, rfl, rfl⟩
  · dsimp only
    have e1 : d.buf.take pre.length = pre := by
      have := congrArg (List.take pre.length) ht
      rw [List.take_take, Nat.min_eq_left (by omega), List.append_assoc, List.take_left] at this
      exact this
    have e2 : ((grown d.buf pre.length 4).drop (pre.length + 4)).take mid.length = mid := by
      rw [List.take_drop, grown_take _ _ _ _ (by omega), show pre.length + 4 + mid.length = n by omega, ht]
      rw [List.drop_left' (by simp [bigEndian_length])]
    rw [e1, List.take_append, List.take_of_length_le (by simp [bigEndian_length]; omega)]
    congr 1
    rw [show n - (pre ++ bigEndian 4 v).length = mid.length by simp [bigEndian_length]; omega]
    exact e2
  · dsimp only
    have := (grown_length d.buf pre.length 4 (by omega)).2
    have := (grown_length d.buf pre.length 4 (by omega)).1
    simp [bigEndian_length]
    omega

theorem offsets_arr_tables (b : Nat) (w v : Nat) (B : List Item) (m : List (Nat × Nat)) :
    tagTable m (offsets b (.arr 4 [w] :: B)) = tagTable m (offsets b (.arr 4 [v] :: B)) ∧
    ptrTable m (offsets b (.arr 4 [w] :: B)) = ptrTable m (offsets b (.arr 4 [v] :: B)) := by
  have : itemLen (.arr 4 [w]) = itemLen (.arr 4 [v]) := by simp [itemLen, itemBytes, wireArray_length]
  simp only [offsets, tagTable, ptrTable, this, and_self]

/-- Overwriting a word item while writing. -/
theorem WInv.patch {d : WDev} {A B : List Item} {w : Nat} (h : WInv d (A ++ .arr 4 [w] :: B)) (v : Nat) :
    ∃ d1 d2 d3, d.seek (bytesOf A).length = .ok d1 ∧ d1.data 4 [v] = .ok d2 ∧ d2.seek d.cur = .ok d3 ∧
      WInv d3 (A ++ .arr 4 [v] :: B) := by
  have hcur := h.cur
  have hle := h.le
  rw [bytesOf_append, bytesOf_cons, List.length_append, List.length_append] at hcur
  simp only [itemBytes, wireArray_one, bigEndian_length] at hcur
  have hA : (bytesOf (A.map blank)).length = (bytesOf A).length := by
    rw [map_blank_eq 0, withWords_bytes_length]
  obtain ⟨d2, e1, e2, e3, e4, e5, e6⟩ := WDev.patch d (bytesOf (A.map blank)) (bytesOf (B.map blank)) w v d.cur hle
    (by rw [h.bytes]; simp [bytesOf_append, bytesOf_cons, blank, itemBytes, wireArray_one])
  refine ⟨{ d with cur := (bytesOf A).length }, d2, { d2 with cur := d.cur }, ?_, ?_, ?_, ?_⟩
  · unfold WDev.seek; rw [if_neg (by omega)]
  · rw [← hA]; exact e1
  · unfold WDev.seek; rw [if_neg (by omega)]
  · refine ⟨?_, e3, ?_, ?_, ?_⟩
    · show d.cur = _
      rw [hcur]; simp [bytesOf_append, bytesOf_cons, itemBytes, wireArray_one, bigEndian_length]
    · show d2.buf.take d.cur = _
      rw [e2]; simp [bytesOf_append, bytesOf_cons, blank, itemBytes, wireArray_one]
    · show d2.pointedAt = _
      rw [e5, h.pa, offsets_append, offsets_append, tagTable_append, tagTable_append]
      exact (offsets_arr_tables _ w v B _).1
    · show d2.pointerTo = _
      rw [e6, h.pt, offsets_append, offsets_append, ptrTable_append, ptrTable_append]
      exact (offsets_arr_tables _ w v B _).2

theorem fits_word (n : Nat) : fits (word n) := by simp [fits, word]
theorem fits_chars (s : List Byte) (h : s.length + 3 < 2 ^ 32) : fits (chars s) := by simpa [fits, chars] using h

theorem itemLen_word (n : Nat) : itemLen (word n) = 4 := by simp [itemLen, itemBytes, word, wireArray_length, padding]
theorem itemLen_chars (s : List Byte) : itemLen (chars s) = s.length + padding s.length := by
  simp [itemLen, itemBytes, chars, wireArray_length]

theorem blockItems_length (b : WBlock) : (bytesOf (blockItems b)).length = blockLen b := by
  simp only [blockItems, hdrItems, bytesOf_append, List.length_append, bytesOf_length, List.map_cons, List.map_nil, List.sum_cons,
    List.sum_nil, itemLen_word, itemLen_chars, blockLen, blockHeaderLen]
  omega

theorem writeBlock_eq {d : WDev} {is : List Item} (h : WInv d is) (b : WBlock) (hb : blockFits b) :
    ∃ d', writeBlock d b = .ok d' ∧ WInv d' (is ++ blockItems b) := by
  obtain ⟨hn, hi, hl⟩ := hb
  have hnm : b.name.length % 2 ^ 32 = b.name.length := Nat.mod_eq_of_lt (by omega)
  obtain ⟨d1, r1, w1⟩ := h.run [.arr 4 [blockMarker], .arr 4 [blockMarker], .arr 4 [b.version.toNat], .arr 4 [b.name.length],
    .arr 1 (b.name.map UInt8.toNat)] (by
      intro i hi
      simp only [List.mem_cons, List.not_mem_nil, or_false] at hi
      rcases hi with rfl | rfl | rfl | rfl | rfl <;> simp [fits]
      exact hn)
  obtain ⟨d2, r2, w2⟩ := w1.run b.items hi
  have hd2 : d2.cur - d.cur = blockLen b := by
    rw [w2.cur, h.cur, ← blockItems_length]
    simp only [blockItems, hdrItems, bytesOf_append, List.length_append]
    simp only [bytesOf_cons, bytesOf_nil, List.length_append, itemBytes, word, chars, wireArray_length, List.length_nil, List.length_cons, List.length_map]
    omega
  have w2' : WInv d2 (is ++ .arr 4 [blockMarker] :: ([.arr 4 [blockMarker], .arr 4 [b.version.toNat], .arr 4 [b.name.length],
    .arr 1 (b.name.map UInt8.toNat)] ++ b.items)) := by
    simpa using w2
  obtain ⟨d3, d4, d5, r3, r4, r5, w5⟩ := w2'.patch (blockLen b)
  refine ⟨d5, ?_, by simpa [blockItems, hdrItems, word, chars, blockMarker] using w5⟩
  unfold writeBlock
  simp only [hnm, List.take_length]
  rw [r1]
  simp only [bind, Except.bind]
  rw [r2]
  simp only
  rw [h.cur, r3]
  simp only
  rw [← h.cur, hd2, Nat.mod_eq_of_lt hl, r4]
  exact r5

theorem writeBlockList_eq {d : WDev} {is : List Item} (h : WInv d is) (bs : List WBlock) (hb : ∀ b ∈ bs, blockFits b) :
    ∃ d', writeBlockList d bs = .ok d' ∧ WInv d' (is ++ blocksItems bs) := by
  induction bs generalizing d is with
  | nil => exact ⟨d, rfl, by simpa [blocksItems] using h⟩
  | cons b bs ih =>
    obtain ⟨d1, r1, w1⟩ := writeBlock_eq h b (hb b (by simp))
    obtain ⟨d2, r2, w2⟩ := ih w1 (fun b' hb' => hb b' (by simp [hb']))
    refine ⟨d2, ?_, by simpa [blocksItems] using w2⟩
    simp only [writeBlockList, r1, rethrowing, bind, Except.bind]
    exact r2

/-- What the words of pointers and tags are after relocation. -/
structure Numbered (is : List Item) (b : Nat) (num τ : Nat → Nat) : Prop where
  range : ∀ a, a ≠ 0 → a ∈ ptrsOf is → 0 < num a ∧ num a < 0xffffffff
  inj : ∀ a a', a ≠ 0 → a' ≠ 0 → a ∈ ptrsOf is → a' ∈ ptrsOf is → num a = num a' → a = a'
  ptr : ∀ o a, (o, Item.ptr a) ∈ offsets b is → τ o = ptrWord num (tagsOf is) a
  tag : ∀ o a, (o, Item.tag a) ∈ offsets b is →
        (firstTag a (offsets b is) = some o ∧ a ≠ 0 ∧ a ∈ ptrsOf is ∧ τ o = num a) ∨
        (¬ (firstTag a (offsets b is) = some o ∧ a ≠ 0 ∧ a ∈ ptrsOf is) ∧ τ o = 0xffffffff)

theorem WInv.relocate {d : WDev} {is : List Item} (h : WInv d is) (hl : (bytesOf is).length < 2 ^ 32) :
    ∃ d' num τ, d.relocate = .ok d' ∧ d'.cur = d.cur ∧ d.cur ≤ d'.buf.length ∧ d'.buf.take d.cur = bytesOf (withWords τ 0 is) ∧
      Numbered is 0 num τ := by
  obtain ⟨num, τ, h1, h2, h3, h4, h5⟩ := relocate_eq d is [] (d.buf.drop d.cur) 0 rfl
    (by rw [List.nil_append, ← h.bytes, List.take_append_drop]) h.pa h.pt hl
  have hlen : (bytesOf (withWords τ 0 is)).length = d.cur := by rw [withWords_bytes_length, h.cur]
  refine ⟨_, num, τ, h1, rfl, ?_, ?_, ⟨h2, h3, h4, h5⟩⟩
  · simp; omega
  · simp only [List.nil_append]
    exact List.take_left' hlen

theorem withWords_arr (τ : Nat → Nat) (b s : Nat) (v : List Nat) (is : List Item) :
    withWords τ b (.arr s v :: is) = .arr s v :: withWords τ (b + itemLen (.arr s v)) is := rfl

theorem padding_lt (n : Nat) : padding n < 4 := by unfold padding; omega

/-- `write_record` in closed form. -/
theorem writeRecord_eq (name buf : List Byte) (bs : List WBlock) (opts : W32)
    (hname : validRecordName name = true) (hb : ∀ b ∈ bs, blockFits b)
    (hlen : headerLen name + dataLen bs < 2 ^ 32) :
    ∃ num τ, writeRecord name buf bs opts =
        .ok ({ headerLength := headerLen name, options := setCompression opts false, dataLength := dataLen bs,
               uncompressedLength := dataLen bs, name := name },
             bytesOf (withWords τ 0 (recordItems name (setCompression opts false) bs))) ∧
      Numbered (recordItems name (setCompression opts false) bs) 0 num τ := by
  have hn64 : name.length ≤ 64 := by
    unfold validRecordName at hname
    split at hname
    · cases hname
    · split at hname
      · cases hname
      · omega
  have hnm : name.length % 2 ^ 32 = name.length := Nat.mod_eq_of_lt (by omega)
  have hp := padding_lt name.length
  generalize hO : setCompression opts false = O
  obtain ⟨d1, r1, w1⟩ := (WInv.start buf).run [.arr 4 [recordMarker], .arr 4 [recordMarker], .arr 4 [O.toNat]]
    (by intro i hi; simp only [List.mem_cons, List.not_mem_nil, or_false] at hi; rcases hi with rfl | rfl | rfl <;> simp [fits])
  obtain ⟨d2, r2, w2⟩ := w1.run [.arr 4 [recordMarker], .arr 4 [recordMarker], .arr 4 [name.length], .arr 1 (name.map UInt8.toNat)]
    (by
      intro i hi; simp only [List.mem_cons, List.not_mem_nil, or_false] at hi
      rcases hi with rfl | rfl | rfl | rfl <;> simp [fits]
      omega)
  have hc1 : d1.cur = 12 := by rw [w1.cur]; simp [bytesOf_length, itemLen, itemBytes, wireArray_length, padding]
  have hc2 : d2.cur = headerLen name := by
    rw [w2.cur, bytesOf_append, List.length_append, ← w1.cur, hc1]
    simp only [bytesOf_length, List.map_cons, List.map_nil, List.sum_cons, List.sum_nil]
    have e1 : ∀ n, itemLen (.arr 4 [n]) = 4 := itemLen_word
    have e2 : itemLen (.arr 1 (name.map UInt8.toNat)) = name.length + padding name.length := itemLen_chars name
    rw [e1, e1, e2]; unfold headerLen; omega
  have hh : d2.cur % 2 ^ 32 = headerLen name := by rw [hc2]; exact Nat.mod_eq_of_lt (by omega)
  have w2' : WInv d2 ([] ++ .arr 4 [recordMarker] :: [.arr 4 [recordMarker], .arr 4 [O.toNat], .arr 4 [recordMarker], .arr 4 [recordMarker],
    .arr 4 [name.length], .arr 1 (name.map UInt8.toNat)]) := by simpa using w2
  obtain ⟨d3, d4, d5, r3, r4, r5, w5⟩ := w2'.patch (headerLen name)
  obtain ⟨d6, r6, w6⟩ := writeBlockList_eq w5 bs hb
  generalize hH : ([word (headerLen name), word recordMarker, word O.toNat] : List Item) = H
  generalize hM : ([word name.length, chars name] : List Item) ++ blocksItems bs = M
  have w6' : WInv d6 (H ++ word recordMarker :: word recordMarker :: M) := by
    rw [← hH, ← hM]; simpa [word, chars] using w6
  have hHlen : (bytesOf H).length = 12 := by
    rw [← hH, bytesOf_length]; simp [itemLen_word]
  have hMlen : (bytesOf M).length + 20 = headerLen name + dataLen bs := by
    rw [← hM, bytesOf_append, List.length_append, bytesOf_length]
    simp only [List.map_cons, List.map_nil, List.sum_cons, List.sum_nil, itemLen_word, itemLen_chars, headerLen, dataLen]
    omega
  have hTot : (bytesOf (H ++ word recordMarker :: word recordMarker :: M)).length = headerLen name + dataLen bs := by
    rw [bytesOf_append, bytesOf_cons, bytesOf_cons]
    simp only [List.length_append, hHlen]
    have := itemLen_word recordMarker
    unfold itemLen at this
    rw [this]; omega
  obtain ⟨d7, num, τ, r7, hcur7, hle7, ht7, hnum⟩ := w6'.relocate (by omega)
  have hcur6 : d6.cur = headerLen name + dataLen bs := by rw [w6'.cur, hTot]
  have hww : ∀ x y, withWords τ 0 (H ++ word x :: word y :: M) = H ++ word x :: word y :: withWords τ 20 M := by
    intro x y
    have hHw : withWords τ 0 H = H := by rw [← hH]; rfl
    rw [withWords_append, hHw, hHlen]
    have e1 : withWords τ (0 + 12) (word x :: word y :: M) = word x :: word y :: withWords τ (0 + 12 + itemLen (word x) + itemLen (word y)) M := rfl
    rw [e1, itemLen_word, itemLen_word]
  rw [hww] at ht7
  obtain ⟨d8, p1, p2, p3, p4, p5, p6⟩ := WDev.patch d7 (bytesOf H) (bigEndian 4 recordMarker ++ bytesOf (withWords τ 20 M)) recordMarker (dataLen bs) d6.cur hle7
    (by rw [ht7]; simp [bytesOf_append, bytesOf_cons, itemBytes, word, wireArray_one])
  obtain ⟨d9, q1, q2, q3, q4, q5, q6⟩ := WDev.patch d8 (bytesOf H ++ bigEndian 4 (dataLen bs)) (bytesOf (withWords τ 20 M)) recordMarker (dataLen bs) d6.cur p3
    (by rw [p2]; simp)
  have hrec : recordItems name O bs = H ++ word (dataLen bs) :: word (dataLen bs) :: M := by
    rw [← hH, ← hM]; rfl
  refine ⟨num, τ, ?_, ?_⟩
  · unfold writeRecord
    rw [if_neg (by simp [hname])]
    have hbody : writeRecordBody name buf bs opts =
        .ok ({ headerLength := headerLen name, options := O, dataLength := dataLen bs,
               uncompressedLength := dataLen bs, name := name }, bytesOf (withWords τ 0 (recordItems name O bs))) := by
      unfold writeRecordBody writeBlocks
      simp only [hO, hnm, List.take_length]
      rw [r1]
      simp only [bind, Except.bind]
      rw [r2]
      simp only [hh]
      have e3 : d2.seek 0 = .ok d3 := r3
      rw [e3]
      simp only
      rw [r4]
      simp only
      rw [show d4.seek (headerLen name) = .ok d5 by rw [← hc2]; exact r5]
      simp only
      rw [r6]
      simp only
      rw [r7]
      simp only
      have e8 : d7.seek d1.cur = .ok { d7 with cur := (bytesOf H).length } := by
        unfold WDev.seek
        rw [if_neg (by omega), hc1, hHlen]
      rw [e8]
      simp only
      rw [hcur7, hcur6, show headerLen name + dataLen bs - headerLen name = dataLen bs by omega, Nat.mod_eq_of_lt (by omega), p1]
      simp only
      have e9 : d8 = { d8 with cur := (bytesOf H ++ bigEndian 4 (dataLen bs)).length } := by
        rw [show (bytesOf H ++ bigEndian 4 (dataLen bs)).length = d8.cur by simp [p4, bigEndian_length]]
      rw [e9, q1]
      simp only [pure, Except.pure]
      congr 2
      rw [hrec, hww]
      unfold resize
      rw [← hcur6, q2]
      have : d6.cur - d9.buf.length = 0 := by omega
      rw [this]
      simp [zeros, bytesOf_append, bytesOf_cons, itemBytes, word, wireArray_one]
    rw [hbody]; rfl
  · rw [hrec]
    have e1 : ∀ x y, offsets 0 (H ++ word x :: word y :: M) = offsets 0 H ++ (12, word x) :: (16, word y) :: offsets 20 M := by
      intro x y
      rw [offsets_append, hHlen]
      have : offsets (0 + 12) (word x :: word y :: M) = (12, word x) :: (0 + 12 + itemLen (word x), word y) :: offsets (0 + 12 + itemLen (word x) + itemLen (word y)) M := rfl
      rw [this, itemLen_word, itemLen_word]
    have e2 : ∀ x y, tagsOf (H ++ word x :: word y :: M) = tagsOf H ++ tagsOf M := by intro x y; rw [tagsOf_append]; rfl
    have e3 : ∀ x y, ptrsOf (H ++ word x :: word y :: M) = ptrsOf H ++ ptrsOf M := by intro x y; rw [ptrsOf_append]; rfl
    have e4 : ∀ x y a, firstTag a (offsets 0 (H ++ word x :: word y :: M)) = firstTag a (offsets 20 M) := by
      intro x y a; rw [e1, ← hH]; rfl
    have e5 : ∀ x y o i, isRef i = true → ((o, i) ∈ offsets 0 (H ++ word x :: word y :: M) ↔ (o, i) ∈ offsets 20 M) := by
      intro x y o i hi
      rw [e1, ← hH]
      simp only [offsets, List.cons_append, List.nil_append, List.mem_cons, Prod.mk.injEq]
      constructor
      · rintro (⟨_, rfl⟩ | ⟨_, rfl⟩ | ⟨_, rfl⟩ | ⟨_, rfl⟩ | ⟨_, rfl⟩ | h)
        all_goals first | exact h | (simp [word, isRef] at hi)
      · intro h; simp [h]
    constructor
    · rw [e3 _ _]; have := hnum.range; rw [e3 _ _] at this; exact this
    · rw [e3 _ _]; have := hnum.inj; rw [e3 _ _] at this; exact this
    · intro o a h
      rw [e5 _ _ _ _ rfl] at h
      have := hnum.ptr o a ((e5 _ _ _ _ rfl).2 h)
      rw [e2] at this ⊢
      exact this
    · intro o a h
      rw [e5 _ _ _ _ rfl] at h
      have := hnum.tag o a ((e5 _ _ _ _ rfl).2 h)
      rw [e4, e3] at this ⊢
      exact this

end Sio
