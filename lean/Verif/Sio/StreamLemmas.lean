import Verif.Sio.BlockLemmas
import Verif.Spec.File
/-
Reading and writing records on streams: lemmas.
-/
namespace Sio
open Spec

theorem run_items {α : Type} (p : RProg α) (is : List Item) (a : α) (hnoref : ∀ i ∈ is, isRef i = false) (hf : ∀ i ∈ is, fits i)
    (hp : ∀ n, p.runI (fun _ => 0) ⟨is ++ [], n, []⟩ = some (a, ⟨[], n, []⟩)) (pre post : List Byte) (d : RDev)
    (hb : d.buf = pre ++ bytesOf is ++ post) (hc : d.cur = pre.length) :
    ∃ d', p.run d = .ok (a, d') ∧ d'.buf = d.buf ∧ d'.cur = pre.length + (bytesOf is).length := by
  obtain ⟨used, nr, e1, e2, e3, e4⟩ := runI_run _ p _ _ _ (hp d.next)
  have hw : withWords (fun _ => 0) 0 is = is := by
    rw [← map_blank_noref is hnoref 0]
    have : ∀ i ∈ is, blank i = i := by
      intro i hi
      have := hnoref i hi
      cases i <;> simp_all [isRef, blank]
    rw [List.map_congr_left this, List.map_id']
  simp only [List.append_nil] at e1 e4
  obtain ⟨d', f1, f2, f3, _⟩ := e4 d pre post 0 (fun _ => 0) (by rw [hw]; exact hb) hc rfl (by intro o x _; simp) hf
  exact ⟨d', f1, f2, by rw [f3, ← e1]⟩

theorem overwrite_zero (l b : List Byte) : overwrite l 0 b = b ++ l.drop b.length := by
  simp [overwrite, resize, zeros]

theorem overwrite_append (a l b : List Byte) : overwrite (a ++ l) a.length b = a ++ b ++ l.drop b.length := by
  simp [overwrite, resize, zeros, List.drop_append]

theorem overwrite_end (a b : List Byte) : overwrite a a.length b = a ++ b := by
  simp [overwrite, resize, zeros]

theorem padBytes_eq (n : Nat) : padBytes n = padding n := by
  unfold padBytes padding
  have h3 : ∀ m, m &&& 3 = m % 4 := fun m => Nat.and_two_pow_sub_one_eq_mod m 2
  rw [h3, h3]

theorem header_length (r : Rec) : r.header.length = headerLen r.name := by
  unfold Rec.header
  rw [bytesOf_length]
  simp only [headerItems, List.map_cons, List.map_nil, List.sum_cons, List.sum_nil, itemLen_word, itemLen_chars, headerLen]
  omega

theorem wire_length (r : Rec) : r.wire.length = headerLen r.name + r.data.length + padding r.data.length := by
  simp [Rec.wire, header_length]; omega

theorem headerLen_bounds (name : List Byte) (h : name.length ≤ 64) : 24 ≤ headerLen name ∧ headerLen name ≤ 88 ∧ headerLen name % 4 = 0 := by
  unfold headerLen padding; omega

theorem word_eq (n : Nat) (h : n < 2 ^ 32) : [word n] = w32 (BitVec.ofNat 32 n) := by
  simp [word, w32]; omega

/-- First part of a header. -/
def hdr1 (r : Rec) : List Item := [word (headerLen r.name), word recordMarker]
/-- Second part of a header. -/
def hdr2 (r : Rec) : List Item := [word r.opts.toNat, word r.data.length, word r.full, word r.name.length, chars r.name]

theorem header_split (r : Rec) : r.header = bytesOf (hdr1 r) ++ bytesOf (hdr2 r) := by
  rw [← bytesOf_append]; rfl

theorem hdr1_length (r : Rec) : (bytesOf (hdr1 r)).length = 8 := by
  rw [bytesOf_length]
  simp only [hdr1, List.map_cons, List.map_nil, List.sum_cons, List.sum_nil, itemLen_word]
  rfl

theorem hdr2_length (r : Rec) : (bytesOf (hdr2 r)).length = headerLen r.name - 8 := by
  have h := header_length r
  rw [header_split, List.length_append, hdr1_length] at h
  omega

theorem run_hdr1 (r : Rec) (hr : r.Ok) (post : List Byte) :
    ∃ d', recordHeaderStart.run { buf := bytesOf (hdr1 r) ++ post } = .ok ((headerLen r.name, recordMarker), d') := by
  have hl := headerLen_bounds r.name hr.name
  have e : hdr1 r ++ [] = w32 (BitVec.ofNat 32 (headerLen r.name)) ++ (w32 (BitVec.ofNat 32 recordMarker) ++ []) := by
    rw [← word_eq _ (by omega), ← word_eq _ (by decide)]; rfl
  obtain ⟨d', h, _⟩ := run_items recordHeaderStart (hdr1 r) (headerLen r.name, recordMarker)
    (by intro i hi; simp only [hdr1, List.mem_cons, List.not_mem_nil, or_false] at hi; rcases hi with rfl | rfl <;> rfl)
    (by intro i hi; simp only [hdr1, List.mem_cons, List.not_mem_nil, or_false] at hi; rcases hi with rfl | rfl <;> exact fits_word _)
    (by
      intro n
      rw [e]
      unfold recordHeaderStart
      rw [runI_bind, runI_r32]; simp only [Option.bind_some]
      rw [runI_bind, runI_r32]; simp only [Option.bind_some]
      rw [runI_pure]
      have h1 : headerLen r.name % 2 ^ 32 = headerLen r.name := Nat.mod_eq_of_lt (by omega)
      simp only [BitVec.toNat_ofNat, h1]
      rfl) [] post { buf := bytesOf (hdr1 r) ++ post } (by simp) rfl
  exact ⟨d', h⟩

theorem run_hdr2 (r : Rec) (hr : r.Ok) (post : List Byte) :
    ∃ d', recordHeaderRest.run { buf := bytesOf (hdr1 r) ++ bytesOf (hdr2 r) ++ post, cur := 8 } =
      .ok ((r.opts, r.data.length, r.full, r.name), d') := by
  have hw := wire_length r
  have hs := hr.size
  have hfull := hr.full
  have hn := hr.name
  have e : hdr2 r ++ [] = w32 r.opts ++ (w32 (BitVec.ofNat 32 r.data.length) ++ (w32 (BitVec.ofNat 32 r.full) ++
      (w32 (BitVec.ofNat 32 r.name.length) ++ (w8s r.name ++ [])))) := by
    rw [← word_eq r.data.length (by omega), ← word_eq r.full (by omega), ← word_eq r.name.length (by omega)]
    simp [hdr2, word, w32, w8s, chars]
  obtain ⟨d', h, _⟩ := run_items recordHeaderRest (hdr2 r) (r.opts, r.data.length, r.full, r.name)
    (by intro i hi; simp only [hdr2, List.mem_cons, List.not_mem_nil, or_false] at hi; rcases hi with rfl | rfl | rfl | rfl | rfl <;> rfl)
    (by
      intro i hi; simp only [hdr2, List.mem_cons, List.not_mem_nil, or_false] at hi
      rcases hi with rfl | rfl | rfl | rfl | rfl
      · exact fits_word _
      · exact fits_word _
      · exact fits_word _
      · exact fits_word _
      · exact fits_chars _ (by omega))
    (by
      intro n
      rw [e]
      unfold recordHeaderRest
      rw [runI_bind, runI_r32]; simp only [Option.bind_some]
      rw [runI_bind, runI_r32]; simp only [Option.bind_some]
      rw [runI_bind, runI_r32]; simp only [Option.bind_some]
      rw [runI_bind, runI_r32]; simp only [Option.bind_some]
      have h1 : r.data.length % 2 ^ 32 = r.data.length := Nat.mod_eq_of_lt (by omega)
      have h2 : r.full % 2 ^ 32 = r.full := Nat.mod_eq_of_lt (by omega)
      have h3 : r.name.length % 2 ^ 32 = r.name.length := Nat.mod_eq_of_lt (by omega)
      simp only [BitVec.toNat_ofNat, h1, h2, h3]
      rw [if_neg (by omega), runI_bind, runI_r8s _ _ _ rfl]; simp only [Option.bind_some]
      rw [runI_pure])
    (bytesOf (hdr1 r)) post { buf := bytesOf (hdr1 r) ++ bytesOf (hdr2 r) ++ post, cur := 8 } rfl (hdr1_length r).symm
  exact ⟨d', h⟩

/-- A stream that is open and good. -/
abbrev ready (B : List Byte) (p : Nat) : IStream := { bytes := B, pos := p }
/-- A stream after a short read. -/
abbrev failed (B : List Byte) (p : Nat) : IStream := { bytes := B, pos := p, eof := true, fail := true }

theorem ready_good (B : List Byte) (p : Nat) : (ready B p).good = true := rfl

theorem read_ready (pre a post : List Byte) (p n : Nat) (hp : p = pre.length) (hn : n = a.length) :
    (ready (pre ++ a ++ post) p).read n = (a, ready (pre ++ a ++ post) (p + n)) := by
  subst hp hn
  unfold IStream.read
  rw [ready_good]
  simp only [Bool.not_true, Bool.false_eq_true, if_false]
  have : ((pre ++ a ++ post).drop pre.length).take a.length = a := by rw [List.append_assoc, List.drop_left, List.take_left]
  rw [this]
  simp

theorem read_short (pre a : List Byte) (p n : Nat) (hp : p = pre.length) (hn : a.length < n) :
    (ready (pre ++ a) p).read n = (a, failed (pre ++ a) (p + a.length)) := by
  subst hp
  unfold IStream.read
  rw [ready_good]
  simp only [Bool.not_true, Bool.false_eq_true, if_false]
  have : ((pre ++ a).drop pre.length).take n = a := by rw [List.drop_left, List.take_of_length_le (by omega)]
  rw [this]
  simp [hn]

theorem seekg_ready (B : List Byte) (p q : Nat) : (ready B p).seekg q = ready B q := rfl

/-- Reading a record header from a stream positioned at a record. -/
theorem readRecordInfo_eq (buf pre post : List Byte) (r : Rec) (hr : r.Ok) (p : Nat) (hp : p = pre.length) :
    readRecordInfo (ready (pre ++ r.header ++ post) p) buf =
      (.ok (r.info p), ready (pre ++ r.header ++ post) (p + headerLen r.name), r.header) := by
  have hl := headerLen_bounds r.name hr.name
  have hw := wire_length r
  have hs := hr.size
  have l1 := hdr1_length r
  have l2 := hdr2_length r
  unfold readRecordInfo
  simp only [ready_good, Bool.not_true, Bool.false_eq_true, if_false]
  have hB : pre ++ r.header ++ post = pre ++ bytesOf (hdr1 r) ++ (bytesOf (hdr2 r) ++ post) := by rw [header_split]; simp
  have hB2 : pre ++ r.header ++ post = (pre ++ bytesOf (hdr1 r)) ++ bytesOf (hdr2 r) ++ post := by rw [header_split]; simp
  have r1 : (ready (pre ++ r.header ++ post) p).read 8 = (bytesOf (hdr1 r), ready (pre ++ r.header ++ post) (p + 8)) := by
    rw [hB]; exact read_ready pre _ _ p 8 hp l1.symm
  have hn : (headerLen r.name + 2 ^ 32 - 8) % 2 ^ 32 = (bytesOf (hdr2 r)).length := by rw [l2]; omega
  have r2 : (ready (pre ++ r.header ++ post) (p + 8)).read ((headerLen r.name + 2 ^ 32 - 8) % 2 ^ 32) =
      (bytesOf (hdr2 r), ready (pre ++ r.header ++ post) (p + headerLen r.name)) := by
    rw [hB2]
    have := read_ready (pre ++ bytesOf (hdr1 r)) (bytesOf (hdr2 r)) post (p + 8) _ (by simp [hp, l1]) hn
    rw [this, hn, l2, show p + 8 + (headerLen r.name - 8) = p + headerLen r.name by omega]
  simp only [r1, ready_good, Bool.not_true, Bool.false_eq_true, if_false]
  rw [overwrite_zero]
  obtain ⟨d', e1⟩ := run_hdr1 r hr ((resize buf maxRecordInfoLen).drop (bytesOf (hdr1 r)).length)
  simp only [e1, r2]
  rw [if_neg (by simp)]
  rw [if_neg (by rw [l2]; unfold maxRecordInfoLen; omega)]
  have ho := overwrite_append (bytesOf (hdr1 r)) ((resize buf maxRecordInfoLen).drop (bytesOf (hdr1 r)).length) (bytesOf (hdr2 r))
  rw [l1] at ho ⊢
  rw [ho]
  obtain ⟨d'', e2⟩ := run_hdr2 r hr (((resize buf maxRecordInfoLen).drop 8).drop (bytesOf (hdr2 r)).length)
  rw [e2]
  simp only
  have hres : resize (bytesOf (hdr1 r) ++ bytesOf (hdr2 r) ++ ((resize buf maxRecordInfoLen).drop 8).drop (bytesOf (hdr2 r)).length) (headerLen r.name) = r.header := by
    have : (bytesOf (hdr1 r) ++ bytesOf (hdr2 r)).length = headerLen r.name := by rw [List.length_append, l1, l2]; omega
    unfold resize
    rw [List.take_left' this, header_split]
    rw [show headerLen r.name - _ = 0 from Nat.sub_eq_zero_of_le (by rw [List.length_append, this]; omega)]
    simp [zeros]
  rw [hres]
  have htot : (if isCompressed r.opts = true then ((r.data.length + headerLen r.name) % 2 ^ 32 + padBytes r.data.length) % 2 ^ 32
      else (r.data.length + headerLen r.name) % 2 ^ 32) = r.wire.length := by
    rw [padBytes_eq]
    split
    · omega
    · rename_i hc
      have := hr.aligned (by simpa using hc)
      have : padding r.data.length = 0 := by unfold padding; omega
      omega
  rw [htot]
  rfl

/-- Reading the data of the record whose header was just read. -/
theorem readRecordData_eq (pre post : List Byte) (r : Rec) (p q : Nat) (hp : p = pre.length) :
    readRecordData (ready (pre ++ r.header ++ r.data ++ post) q) (r.info p) r.header (headerLen r.name) =
      (.ok (), ready (pre ++ r.header ++ r.data ++ post) (p + r.wire.length), r.header ++ r.data) := by
  have hl := header_length r
  unfold readRecordData
  simp only [ready_good, Bool.not_true, Bool.false_eq_true, if_false, Rec.info, seekg_ready]
  have r1 := read_ready (pre ++ r.header) r.data post (p + headerLen r.name) r.data.length (by simp [hl, hp]) rfl
  simp only [r1, ready_good, Bool.not_true, Bool.false_eq_true, if_false, seekg_ready]
  have hres : resize r.header (headerLen r.name + r.data.length) = r.header ++ zeros r.data.length := by
    unfold resize
    rw [List.take_of_length_le (by omega), hl]
    congr 2; omega
  have ho := overwrite_append r.header (zeros r.data.length) r.data
  rw [hl] at ho
  rw [hres, ho]
  have : (zeros r.data.length).drop r.data.length = [] := by simp [zeros]
  rw [this, List.append_nil]
  have hres2 : resize (r.header ++ r.data) (headerLen r.name + r.data.length) = r.header ++ r.data := by
    unfold resize
    rw [List.take_of_length_le (by simp [hl])]
    simp [hl, zeros]
  rw [hres2]

/-- Reading a whole record. The padding after it may be missing. -/
theorem readRecord_eq (buf pre post : List Byte) (r : Rec) (hr : r.Ok) (p : Nat) (hp : p = pre.length) :
    readRecord (ready (pre ++ r.header ++ r.data ++ post) p) buf =
      (.ok (r.info p), ready (pre ++ r.header ++ r.data ++ post) (p + r.wire.length), r.header ++ r.data) := by
  unfold readRecord
  have h1 := readRecordInfo_eq buf pre (r.data ++ post) r hr p hp
  rw [← List.append_assoc] at h1
  rw [h1]
  simp only
  rw [show (r.info p).headerLength = headerLen r.name from rfl, readRecordData_eq pre post r p _ hp]

theorem recordHeaderStart_ok (buf : List Byte) (h : 8 ≤ buf.length) : ∃ d', recordHeaderStart.run { buf := buf } = .ok ((wordAt buf 0, wordAt buf 4), d') := by
  have e : recordHeaderStart = r32.bind fun a => r32.bind fun b => .ret (a.toNat, b.toNat) := rfl
  rw [e]
  rcases RDev.data_word_iff { buf := buf } with ⟨h1, h2⟩ | ⟨h1, _⟩
  · rcases RDev.data_word_iff { buf := buf, cur := 4 } with ⟨h3, h4⟩ | ⟨h3, _⟩
    · simp only [r32, RProg.bind, RProg.run, h2, Nat.zero_add, h4]
      have w1 := wordAt_lt buf 0 (by omega)
      have w2 := wordAt_lt buf 4 (by omega)
      simp only [BitVec.toNat_ofNat, List.headD_cons, Nat.mod_eq_of_lt w1, Nat.mod_eq_of_lt w2]
      exact ⟨_, rfl⟩
    · simp only at h3; omega
  · simp only at h1; omega

theorem recordHeaderRest_total (buf : List Byte) (h : 88 ≤ buf.length) :
    (∃ x, recordHeaderRest.run { buf := buf, cur := 8 } = .ok x) ∨ recordHeaderRest.run { buf := buf, cur := 8 } = .error .noMarker := by
  have e : recordHeaderRest = r32.bind fun a => r32.bind fun b => r32.bind fun c => r32.bind fun n =>
      (if n.toNat > 64 then .throw .noMarker else (r8s n.toNat).bind fun name => .ret (a, b.toNat, c.toNat, name)) := rfl
  rw [e]
  have st : ∀ (d : RDev) {β : Type} (k : W32 → RProg β), d.cur + 4 ≤ d.buf.length →
      (r32.bind k).run d = (k (BitVec.ofNat 32 (wordAt d.buf d.cur))).run { d with cur := d.cur + 4 } := by
    intro d β k hk
    rcases RDev.data_word_iff d with ⟨_, h2⟩ | ⟨h1, _⟩
    · simp only [r32, RProg.bind, RProg.run, h2]; rfl
    · omega
  rw [st _ _ (by simp; omega), st _ _ (by simp; omega), st _ _ (by simp; omega), st _ _ (by simp; omega)]
  split
  · right; rfl
  · rename_i hn
    left
    simp only [r8s, RProg.bind, RProg.run]
    generalize BitVec.toNat _ = n at hn
    have hp : padLen (1 * n) ≤ 64 := by rw [padLen_eq _ (by omega)]; unfold padding; omega
    unfold RDev.data apiRead
    simp only
    rw [if_neg (by omega), if_neg (by omega)]
    exact ⟨_, rfl⟩

/-- A header that is cut off: the stream fails. -/
theorem readRecordInfo_cut (buf pre cut rest : List Byte) (r : Rec) (hr : r.Ok) (p : Nat) (hp : p = pre.length)
    (hcut : r.header = cut ++ rest) (hrest : rest ≠ []) :
    ∃ res q buf', readRecordInfo (ready (pre ++ cut) p) buf = (res, failed (pre ++ cut) q, buf') ∧
      (∀ e, res = .error e → e = .eof ∨ e = .noMarker) ∧ (cut.length < 8 → res = .error .eof) := by
  have hl := headerLen_bounds r.name hr.name
  have l1 := hdr1_length r
  have l2 := hdr2_length r
  have hcl : cut.length < headerLen r.name := by
    rw [← header_length, hcut]
    have := List.length_pos_iff.2 hrest
    simp; omega
  unfold readRecordInfo
  simp only [ready_good, Bool.not_true, Bool.false_eq_true, if_false]
  by_cases hc : cut.length < 8
  · rw [read_short pre cut p 8 hp hc]
    simp only [if_true]
    exact ⟨_, _, _, rfl, fun e he => (by cases he; exact Or.inl rfl), fun _ => rfl⟩
  · obtain ⟨c2, hc2⟩ : ∃ c2, cut = bytesOf (hdr1 r) ++ c2 := by
      refine ⟨cut.drop 8, ?_⟩
      have : cut.take 8 = bytesOf (hdr1 r) := by
        have e := congrArg (List.take 8) hcut
        rw [header_split, List.take_left' l1, List.take_append_of_le_length (by omega)] at e
        exact e.symm
      rw [← this, List.take_append_drop]
    subst hc2
    have r1 : (ready (pre ++ (bytesOf (hdr1 r) ++ c2)) p).read 8 = (bytesOf (hdr1 r), ready (pre ++ (bytesOf (hdr1 r) ++ c2)) (p + 8)) := by
      rw [← List.append_assoc]; exact read_ready pre _ _ p 8 hp l1.symm
    simp only [List.length_append, l1] at hcl
    have hn : (headerLen r.name + 2 ^ 32 - 8) % 2 ^ 32 = headerLen r.name - 8 := by omega
    have r2 : (ready (pre ++ (bytesOf (hdr1 r) ++ c2)) (p + 8)).read ((headerLen r.name + 2 ^ 32 - 8) % 2 ^ 32) =
        (c2, failed (pre ++ (bytesOf (hdr1 r) ++ c2)) (p + 8 + c2.length)) := by
      rw [hn, ← List.append_assoc]
      exact read_short (pre ++ bytesOf (hdr1 r)) c2 (p + 8) _ (by simp [hp, l1]) (by omega)
    simp only [r1, ready_good, Bool.not_true, Bool.false_eq_true, if_false]
    rw [overwrite_zero]
    obtain ⟨d', e1⟩ := run_hdr1 r hr ((resize buf maxRecordInfoLen).drop (bytesOf (hdr1 r)).length)
    simp only [e1, r2]
    rw [if_neg (by simp)]
    rw [if_neg (by unfold maxRecordInfoLen; omega)]
    have ho := overwrite_append (bytesOf (hdr1 r)) ((resize buf maxRecordInfoLen).drop (bytesOf (hdr1 r)).length) c2
    rw [l1] at ho ⊢
    rw [ho]
    have ht := recordHeaderRest_total (bytesOf (hdr1 r) ++ c2 ++ ((resize buf maxRecordInfoLen).drop 8).drop c2.length)
      (by simp only [List.length_append, List.length_drop, resize_length, l1, maxRecordInfoLen]; omega)
    rcases ht with ⟨x, hx⟩ | hx
    · rw [hx]
      obtain ⟨⟨o, dl, ul, nm⟩, d2⟩ := x
      exact ⟨_, _, _, rfl, fun e he => (by cases he), fun hlt => absurd hlt hc⟩
    · rw [hx]
      exact ⟨_, _, _, rfl, fun e he => (by cases he; exact Or.inr rfl), fun hlt => absurd hlt hc⟩

/-- Data that are cut off. -/
theorem readRecordData_cut (buf pre cut : List Byte) (r : Rec) (p q : Nat) (hp : p = pre.length)
    (hcut : cut.length < r.data.length) (shift : Nat) :
    ∃ q' buf', readRecordData (ready (pre ++ r.header ++ cut) q) (r.info p) buf shift =
      (.error .ioFailure, failed (pre ++ r.header ++ cut) q', buf') := by
  have hl := header_length r
  unfold readRecordData
  simp only [ready_good, Bool.not_true, Bool.false_eq_true, if_false, Rec.info, seekg_ready]
  have r1 := read_short (pre ++ r.header) cut (p + headerLen r.name) r.data.length (by simp [hl, hp]) hcut
  simp only [r1]
  exact ⟨_, _, rfl⟩

end Sio
