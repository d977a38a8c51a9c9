import Verif.Lcio.CrashLemmas
import Verif.Lcio.DirectLemmas
/-
Recreating the event map of a file without random access records.
-/
namespace Lcio
open Sio Spec

/-! ## A place where there is no record -/

theorem bytes4 (a b c d : Byte) : ∃ v, v < 2 ^ 32 ∧ bigEndian 4 v = [a, b, c, d] := by
  refine ⟨((a.toNat * 256 + b.toNat) * 256 + c.toNat) * 256 + d.toNat, ?_, ?_⟩
  · have := a.toNat_lt; have := b.toNat_lt; have := c.toNat_lt; have := d.toNat_lt; omega
  · have ha := a.toNat_lt; have hb := b.toNat_lt; have hc := c.toNat_lt; have hd := d.toNat_lt
    have key : ∀ (x : Byte) (n : Nat), n = x.toNat → UInt8.ofNat n = x := by rintro x n rfl; simp
    simp only [bigEndian, List.range_succ, List.range_zero, List.nil_append, List.cons_append, List.map_cons, List.map_nil, List.cons.injEq, and_true]
    refine ⟨key _ _ ?_, key _ _ ?_, key _ _ ?_, key _ _ ?_⟩ <;> omega

theorem start_bad (a b : List Byte) (ha : a.length = 4) (hb : b.length = 4) (hm : b ≠ bigEndian 4 recordMarker) (post : List Byte) :
    ∃ l m d', recordHeaderStart.run { buf := a ++ b ++ post } = .ok ((l, m), d') ∧ m ≠ recordMarker := by
  match a, b, ha, hb with
  | [a1, a2, a3, a4], [b1, b2, b3, b4], _, _ =>
    obtain ⟨v, v1, v2⟩ := bytes4 a1 a2 a3 a4
    obtain ⟨u, u1, u2⟩ := bytes4 b1 b2 b3 b4
    have e : [word v, word u] ++ [] = w32 (BitVec.ofNat 32 v) ++ (w32 (BitVec.ofNat 32 u) ++ []) := by
      rw [← word_eq _ v1, ← word_eq _ u1]; rfl
    have hbytes : bytesOf [word v, word u] = [a1, a2, a3, a4] ++ [b1, b2, b3, b4] := by
      rw [← v2, ← u2]
      simp [bytesOf, word, itemBytes, wireArray, padding]
    obtain ⟨d', h, _⟩ := run_items recordHeaderStart [word v, word u] (v, u)
      (by intro i hi; simp only [List.mem_cons, List.not_mem_nil, or_false] at hi; rcases hi with rfl | rfl <;> rfl)
      (by intro i hi; simp only [List.mem_cons, List.not_mem_nil, or_false] at hi; rcases hi with rfl | rfl <;> exact fits_word _)
      (by
        intro n
        rw [e]
        unfold recordHeaderStart
        rw [runI_bind, runI_r32]; simp only [Option.bind_some]
        rw [runI_bind, runI_r32]; simp only [Option.bind_some]
        rw [runI_pure]
        simp only [BitVec.toNat_ofNat, Nat.mod_eq_of_lt v1, Nat.mod_eq_of_lt u1]) [] post { buf := [a1, a2, a3, a4] ++ [b1, b2, b3, b4] ++ post } (by rw [hbytes]; rfl) rfl
    refine ⟨v, u, d', h, ?_⟩
    rintro rfl
    exact hm u2.symm

/-- Looking for the last record of a file where the file has something else. -/
theorem readAccessAt_none (m : RaMgr) (B : List Byte) (q : Nat) (hlen : 136 ≤ B.length) (hm : (B.drop (B.length - 132)).take 4 ≠ bigEndian 4 recordMarker) :
    ∃ buf, m.readAccessAt (ready B q) (-(randomAccessSize : Int)) = (.ok false, ready B 0, { m with buf := buf }) := by
  have hB : B = B.take (B.length - 136) ++ B.drop (B.length - 136) := (List.take_append_drop _ _).symm
  have hl : (B.drop (B.length - 136)).length = 136 := by rw [List.length_drop]; omega
  have hp : (B.take (B.length - 136)).length = B.length - 136 := by rw [List.length_take]; omega
  have h8 : B = B.take (B.length - 136) ++ ((B.drop (B.length - 136)).take 4 ++ (B.drop (B.length - 132)).take 4) ++ (B.drop (B.length - 128)) := by
    have e1 : B.drop (B.length - 132) = (B.drop (B.length - 136)).drop 4 := by rw [List.drop_drop, show B.length - 136 + 4 = B.length - 132 by omega]
    have e2 : B.drop (B.length - 128) = (B.drop (B.length - 136)).drop 8 := by rw [List.drop_drop, show B.length - 136 + 8 = B.length - 128 by omega]
    rw [e1, e2]
    conv => lhs; rw [hB]
    rw [List.append_assoc]
    exact congrArg _ (by rw [← List.take_add, List.take_append_drop])
  generalize hx : (B.drop (B.length - 136)).take 4 = x at h8
  generalize hy : (B.drop (B.length - 132)).take 4 = y at h8 hm
  have hxl : x.length = 4 := by rw [← hx, List.length_take, hl]; rfl
  have hyl : y.length = 4 := by rw [← hy, List.length_take, List.length_drop]; omega
  have hr : (ready B (B.length - 136)).read 8 = (x ++ y, ready B (B.length - 136 + 8)) := by
    conv => lhs; rw [h8]
    rw [read_ready _ (x ++ y) _ _ 8 (by rw [← h8, hp]) (by simp [hxl, hyl])]
    rw [← h8]
  have hinfo : ∃ s buf, readRecordInfo (ready B (B.length - 136)) m.buf = (.error .noMarker, s, buf) ∧ s.bytes = B ∧ s.isOpen = true := by
    unfold readRecordInfo
    simp only [ready_good, Bool.not_true, Bool.false_eq_true, if_false, hr]
    rw [overwrite_zero]
    obtain ⟨l, mm, d', e1, e2⟩ := start_bad x y hxl hyl hm ((resize m.buf maxRecordInfoLen).drop (x ++ y).length)
    simp only [e1]
    rw [if_pos e2]
    exact ⟨_, _, rfl, rfl, rfl⟩
  obtain ⟨s, buf, h1, h2, h3⟩ := hinfo
  refine ⟨buf, ?_⟩
  unfold RaMgr.readAccessAt
  have hsz : (randomAccessSize : Int) = ((B.drop (B.length - 136)).length : Nat) := by rw [hl]; rfl
  have hseek := seekStream_end (B.take (B.length - 136)) (B.drop (B.length - 136)) q _ rfl (by omega)
  rw [← hB, hp, ← hsz] at hseek
  rw [hseek]
  simp only
  unfold RaMgr.readAccess RaMgr.readAny readRecord
  rw [h1]
  simp only
  have : seekStream (IStream.clear s) 0 = (.ok (), ready B 0) := by
    obtain ⟨sb, sp, so, se, sf⟩ := s
    simp only at h2 h3
    subst h2 h3
    rfl
  rw [this]

/-! ## Skipping -/

def NotHeader (r : Rec) : Prop := r.name ≠ headerRecordName ∧ r.name ≠ runRecordName

theorem notHeader_true (r : Rec) (p : Nat) (h : NotHeader r) : notHeader (r.info p) = true := by
  unfold notHeader
  simp only [Bool.not_eq_true', Bool.or_eq_false_iff, beq_eq_false_iff_ne]
  exact h

theorem skip_none (pre : List Byte) (xs : List Rec) (hx : ∀ r ∈ xs, r.Ok ∧ NotHeader r) (fuel : Nat) (hf : xs.length < fuel) :
    skipRecords (fun (_ : Unit) i => ((), notHeader i)) fuel () (ready (pre ++ fileOf xs) pre.length) =
      ((), .error .eof, failed (pre ++ fileOf xs) (pre ++ fileOf xs).length) := by
  have hs : ∀ p, scan (fun (s : Unit) _ => (s, true)) (fun (_ : Unit) i _ => ((), .ok (notHeader i))) () p xs = ((), .error .eof, none) := by
    clear hf
    induction xs with
    | nil => intro p; rfl
    | cons r xs ih =>
      intro p
      rw [scan_cons]
      simp only [notHeader_true r p (hx r (by simp)).2]
      exact ih (fun y hy => hx y (by simp [hy])) _
  obtain ⟨s', h1, h2⟩ := skipRecordsLoop_scan (fun (_ : Unit) i => ((), notHeader i)) xs (fun r hr => (hx r hr).1) pre (zeros maxRecordInfoLen) () fuel hf pre.length rfl
  unfold skipRecords
  rw [h1]
  rw [hs] at h2
  simp only [hs]
  rw [h2]

theorem skip_some (pre : List Byte) (xs : List Rec) (hx : ∀ r ∈ xs, r.Ok ∧ NotHeader r) (r : Rec) (hr : r.Ok) (hn : ¬ NotHeader r) (rs : List Rec) (hrs : ∀ r ∈ rs, r.Ok)
    (fuel : Nat) (hf : (xs ++ r :: rs).length < fuel) :
    skipRecords (fun (_ : Unit) i => ((), notHeader i)) fuel () (ready (pre ++ fileOf (xs ++ r :: rs)) pre.length) =
      ((), .ok (), ready (pre ++ fileOf (xs ++ r :: rs)) (pre ++ fileOf xs ++ r.wire).length) := by
  have hs : ∀ p, scan (fun (s : Unit) _ => (s, true)) (fun (_ : Unit) i _ => ((), .ok (notHeader i))) () p (xs ++ r :: rs) = ((), .ok (), some rs) := by
    clear hf
    induction xs with
    | nil =>
      intro p
      have : notHeader (r.info p) = false := by
        unfold notHeader
        unfold NotHeader at hn
        simp only [Bool.not_eq_false', Bool.or_eq_true, beq_iff_eq]
        show r.name = _ ∨ r.name = _
        tauto
      rw [List.nil_append, scan_cons]
      simp only [this]
    | cons y xs ih =>
      intro p
      rw [List.cons_append, scan_cons]
      simp only [notHeader_true y p (hx y (by simp)).2]
      exact ih (fun z hz => hx z (by simp [hz])) _
  obtain ⟨s', h1, h2⟩ := skipRecordsLoop_scan (fun (_ : Unit) i => ((), notHeader i)) (xs ++ r :: rs)
    (by
      intro y hy
      rcases List.mem_append.1 hy with h | h
      · exact (hx y h).1
      · rcases List.mem_cons.1 h with rfl | h
        · exact hr
        · exact hrs y h) pre (zeros maxRecordInfoLen) () fuel hf pre.length rfl
  unfold skipRecords
  rw [h1]
  rw [hs] at h2
  simp only [hs]
  rw [h2]
  simp only
  congr 3
  simp only [fileOf_append, fileOf_cons, List.length_append]
  omega

/-! ## The loop -/

/-- What is needed to find out the numbers of something that was written. -/
def Legible : Put → Prop
  | .run _ _ => True
  | .event h cols _ => EventHeaderOk { h with cols := colHeads cols } ∧
      (∀ c ∈ stored [] { h with cols := colHeads cols }, c.2.flag.getLsbD 18 = false → ¬ occursIn (str "_References") c.2.type) ∧
      Writable headerRecordName [EventHeader.block [] { h with cols := colHeads cols }]

theorem legible_event (codec : Codec) (h : EventHeader) (cols : List (Str × Collection)) (buf : Str × Str) (hl : Legible (.event h cols buf)) (r : Rec)
    (hr : RecOf codec r headerRecordName buf.1 [EventHeader.block [] { h with cols := colHeads cols }]) :
    ∃ d e ρ dev, plainOf codec r = .ok d ∧ readBlocks d [headerDecoder [str "__dummy__"]] = .ok ([(headerBlockName, e)], ρ, dev) ∧ (⟨e.run, e.evt⟩ : RunEvent) = ⟨h.run, h.evt⟩ := by
  obtain ⟨info, bytes, w, pl⟩ := hr.plain
  obtain ⟨l1, l2, l3⟩ := hl
  have := storeLoad_plain headerRecordName buf.1 0 (EventHeader.block [] { h with cols := colHeads cols }) (headerDecoder [str "__dummy__"]) 1 _ rfl l3 (by
    intro φ n
    have := runI_eventHeader φ [] [str "__dummy__"] _ l1 l2 [] n []
    rw [List.append_nil] at this
    exact this)
  obtain ⟨ρ, dev, e⟩ := storeLoad_inv this w
  exact ⟨_, _, ρ, dev, pl, e, rfl⟩

theorem legible_run (codec : Codec) (h : RunHeader) (buf : Str) (r : Rec) (hr : RecOf codec r runRecordName buf [h.block]) (hok : RunHeaderOk h)
    (hw : Writable runRecordName [h.block]) :
    ∃ d e ρ dev, plainOf codec r = .ok d ∧ readBlocks d [runDecoder] = .ok ([(runBlockName, e)], ρ, dev) ∧ e.run = h.run := by
  obtain ⟨info, bytes, w, pl⟩ := hr.plain
  have := storeLoad_plain runRecordName buf 0 h.block runDecoder 1 _ rfl hw (by
    intro φ n
    have := runI_runHeader φ h hok [] n []
    rw [List.append_nil] at this
    exact this)
  obtain ⟨ρ, dev, e⟩ := storeLoad_inv this w
  exact ⟨_, _, ρ, dev, pl, e, rfl⟩

theorem recordFuel_ok (pre : List Byte) (xs : List Rec) (q : Nat) : xs.length < recordFuel (ready (pre ++ fileOf xs) q) := by
  have := fileOf_length xs
  show xs.length < (pre ++ fileOf xs).length + 2
  rw [List.length_append]
  omega

/-- One round of the loop: the stream is behind the record that was looked for, `r`, and the next one, `r2`, is read. -/
theorem recreate_read (codec : Codec) (m : RaMgr) (pre : List Byte) (xs : List Rec) (hx : ∀ r ∈ xs, r.Ok ∧ NotHeader r) (r r2 : Rec) (hr : r.Ok) (hr2 : r2.Ok) (hn : ¬ NotHeader r)
    (rs : List Rec) (hrs : ∀ r ∈ rs, r.Ok) (fuel : Nat) (d : List Byte) (hd : plainOf codec r2 = .ok d) (res : Option RunEvent)
    (hres : (r2.name = headerRecordName ∧ ∃ e ρ dev, readBlocks d [headerDecoder [str "__dummy__"]] = .ok ([(headerBlockName, e)], ρ, dev) ∧ res = some ⟨e.run, e.evt⟩) ∨
      (r2.name = runRecordName ∧ ∃ e ρ dev, readBlocks r2.data [runDecoder] = .ok ([(runBlockName, e)], ρ, dev) ∧ res = some ⟨e.run, -1⟩) ∨
      (r2.name = eventRecordName ∧ res = none)) :
    RaMgr.recreateLoop codec (fuel + 1) m (ready (pre ++ fileOf (xs ++ r :: r2 :: rs)) pre.length) =
      RaMgr.recreateLoop codec fuel ({ m with buf := r2.header ++ r2.data }.addKeys (res.toList.map fun k => (k, (pre ++ fileOf (xs ++ [r])).length)))
        (ready (pre ++ fileOf (xs ++ r :: r2 :: rs)) (pre ++ fileOf (xs ++ [r, r2])).length) := by
  have hskip := skip_some pre xs hx r hr hn (r2 :: rs) (by
    intro y hy
    rcases List.mem_cons.1 hy with rfl | hy
    · exact hr2
    · exact hrs y hy) (recordFuel (ready (pre ++ fileOf (xs ++ r :: r2 :: rs)) pre.length)) (recordFuel_ok _ _ _)
  have e0 : pre ++ fileOf (xs ++ [r]) = pre ++ fileOf xs ++ r.wire := by simp [fileOf_append, fileOf_cons, fileOf_nil]
  have e1 : pre ++ fileOf (xs ++ r :: r2 :: rs) = (pre ++ fileOf xs ++ r.wire) ++ r2.header ++ r2.data ++ (List.replicate (padding r2.data.length) 0 ++ fileOf rs) := by
    simp [fileOf_append, fileOf_cons, Rec.wire]
  have e2 : (pre ++ fileOf (xs ++ [r, r2])).length = (pre ++ fileOf xs ++ r.wire).length + r2.wire.length := by
    simp only [fileOf_append, fileOf_cons, fileOf_nil, List.length_append, List.length_nil]; omega
  have hread := readRecord_eq m.buf (pre ++ fileOf xs ++ r.wire) (List.replicate (padding r2.data.length) 0 ++ fileOf rs) r2 hr2 _ rfl
  rw [← e1, ← e2] at hread
  conv => lhs; unfold RaMgr.recreateLoop
  rw [hskip]
  simp only
  rw [hread]
  simp only
  have hs : ∀ p, spanOf (r2.header ++ r2.data) (r2.info p).headerLength (r2.info p).dataLength = .ok r2.data := by
    intro p
    unfold spanOf
    have hl := header_length r2
    rw [if_neg (by simp only [Rec.info, List.length_append]; omega)]
    simp only [Rec.info]
    rw [← hl, List.drop_left, List.take_of_length_le (Nat.le_refl _)]
  rw [hs]
  simp only
  rw [plainData_rec, hd, e0]
  simp only
  rcases hres with ⟨h1, e, ρ, dev, h2, rfl⟩ | ⟨h1, e, ρ, dev, h2, rfl⟩ | ⟨h1, rfl⟩
  · rw [if_pos (show (r2.info _).name = headerRecordName from h1), h2]
    rfl
  · rw [if_neg (show ¬ (r2.info _).name = headerRecordName by show ¬ r2.name = _; rw [h1]; decide), if_pos (show (r2.info _).name = runRecordName from h1), h2]
    rfl
  · rw [if_neg (show ¬ (r2.info _).name = headerRecordName by show ¬ r2.name = _; rw [h1]; decide),
      if_neg (show ¬ (r2.info _).name = runRecordName by show ¬ r2.name = _; rw [h1]; decide)]
    rfl

theorem recreate_end (codec : Codec) (m : RaMgr) (pre : List Byte) (xs : List Rec) (hx : ∀ r ∈ xs, r.Ok ∧ NotHeader r) (fuel : Nat) :
    RaMgr.recreateLoop codec (fuel + 1) m (ready (pre ++ fileOf xs) pre.length) = (.ok (), ready (pre ++ fileOf xs) (pre ++ fileOf xs).length, m) := by
  conv => lhs; unfold RaMgr.recreateLoop
  rw [skip_none pre xs hx _ (recordFuel_ok _ _ _)]
  rfl

theorem recreate_last (codec : Codec) (m : RaMgr) (pre : List Byte) (xs : List Rec) (hx : ∀ r ∈ xs, r.Ok ∧ NotHeader r) (r : Rec) (hr : r.Ok) (hn : ¬ NotHeader r) (fuel : Nat) :
    ∃ buf, RaMgr.recreateLoop codec (fuel + 1) m (ready (pre ++ fileOf (xs ++ [r])) pre.length) =
      (.ok (), ready (pre ++ fileOf (xs ++ [r])) (pre ++ fileOf (xs ++ [r])).length, { m with buf := buf }) := by
  have hskip := skip_some pre xs hx r hr hn [] (by simp) (recordFuel (ready (pre ++ fileOf (xs ++ [r])) pre.length)) (recordFuel_ok _ _ _)
  have e0 : pre ++ fileOf (xs ++ [r]) = pre ++ fileOf xs ++ r.wire := by simp [fileOf_append, fileOf_cons, fileOf_nil]
  obtain ⟨buf', h⟩ := readRecordInfo_end (pre ++ fileOf (xs ++ [r])) m.buf (pre ++ fileOf xs ++ r.wire).length (by rw [e0]; exact Nat.le_refl _)
  refine ⟨buf', ?_⟩
  conv => lhs; unfold RaMgr.recreateLoop
  rw [hskip]
  simp only [readRecord, h]
  rw [e0]
  rfl

theorem addKeys_append (m : RaMgr) (a b : List (RunEvent × Nat)) : (m.addKeys a).addKeys b = m.addKeys (a ++ b) := by
  unfold RaMgr.addKeys
  rw [List.foldl_append]

variable {codec : Codec} {std : Std Pid}

theorem all2_layout {ps : List Put} {gs : List (List Rec)} (h : All2 (Holds codec std) ps gs) : Layout codec std ps gs.flatten := by
  have := layout_groups h .nil
  simpa using this

/-- The loop, from behind some event data `xs` on. -/
theorem recreate_loop (n : Nat) : ∀ (ps : List Put) (_ : ps.length ≤ n) (gs : List (List Rec)) (_ : All2 (Holds codec std) ps gs) (_ : ∀ p ∈ ps, Legible p)
    (_ : (∀ p ∈ found ps, p.isEvent = true) ∨ ∀ r ∈ gs.flatten, isCompressed r.opts = false)
    (fuel : Nat) (_ : ps.length < fuel) (m : RaMgr) (pre : List Byte) (xs : List Rec) (_ : ∀ r ∈ xs, r.Ok ∧ NotHeader r),
    ∃ L buf q, RaMgr.recreateLoop codec fuel m (ready (pre ++ fileOf (xs ++ gs.flatten)) pre.length) =
        (.ok (), ready (pre ++ fileOf (xs ++ gs.flatten)) q, { m.addKeys L with buf := buf }) ∧
      L.map (·.1) = (found ps).map Put.key ∧
      ∀ k pos, (k, pos) ∈ L → ∃ a p b ra rb, ps = a ++ p :: b ∧ p ∈ found ps ∧ p.key = k ∧ xs ++ gs.flatten = ra ++ rb ∧ pos = pre.length + (fileOf ra).length ∧
        Layout codec std (p :: b) rb := by
  induction n with
  | zero =>
    intro ps hn gs h hl hc fuel hf m pre xs hx
    obtain rfl : ps = [] := List.length_eq_zero_iff.1 (by omega)
    cases h.nil_inv
    obtain ⟨fuel, rfl⟩ : ∃ f, fuel = f + 1 := ⟨fuel - 1, by omega⟩
    refine ⟨[], m.buf, (pre ++ fileOf xs).length, ?_, rfl, by simp⟩
    have := recreate_end codec m pre xs hx fuel
    simpa [RaMgr.addKeys] using this
  | succ n ih =>
    intro ps hn gs h hl hc fuel hf m pre xs hx
    cases ps with
    | nil => exact ih [] (by simp) gs h hl hc fuel hf m pre xs hx
    | cons p ps =>
      obtain ⟨fuel, rfl⟩ : ∃ f, fuel = f + 1 := ⟨fuel - 1, by omega⟩
      obtain ⟨g, gs, rfl, hg, hgs⟩ := h.cons_inv
      have hok := (all2_layout hgs).ok
      simp only [List.length_cons] at hn hf
      cases p with
      | event hd cols buf0 =>
        obtain ⟨r, r', rfl, h1, h2⟩ := hg
        obtain ⟨i2, b2, w2, p2⟩ := h2.plain
        have step := recreate_read codec m pre xs hx r r' h1.ok h2.ok (by rw [NotHeader, h1.named]; simp) gs.flatten hok fuel _ p2 none (.inr (.inr ⟨h2.named, rfl⟩))
        obtain ⟨L, buf, q, e1, e2, e3⟩ := ih ps (by omega) gs hgs (fun p hp => hl p (by simp [hp])) (by
          rcases hc with hc | hc
          · exact .inl hc
          · exact .inr fun r hr => hc r (by simp only [List.flatten_cons, List.mem_append]; exact .inr hr)) fuel (by omega) { m with buf := r'.header ++ r'.data } (pre ++ fileOf (xs ++ [r, r'])) [] (by simp)
        have hB : pre ++ fileOf (xs ++ [r, r']) ++ fileOf ([] ++ gs.flatten) = pre ++ fileOf (xs ++ ([r, r'] :: gs).flatten) := by
          simp [fileOf_append, fileOf_cons, fileOf_nil]
        rw [hB] at e1
        refine ⟨L, buf, q, ?_, e2, ?_⟩
        · simp only [List.flatten_cons, List.cons_append, List.nil_append] at e1 ⊢
          rw [step]
          simp only [Option.toList_none, List.map_nil]
          show RaMgr.recreateLoop codec fuel { m with buf := r'.header ++ r'.data } _ = _
          rw [e1, addKeys_eq, addKeys_eq]
        · intro k pos hk
          obtain ⟨a, p, b, ra, rb, f1, f2, f3, f4, f5, f6⟩ := e3 k pos hk
          refine ⟨.event hd cols buf0 :: a, p, b, xs ++ [r, r'] ++ ra, rb, by rw [f1]; rfl, f2, f3, ?_, ?_, f6⟩
          · simp only [List.nil_append] at f4
            simp [f4]
          · rw [f5]
            simp only [fileOf_append, List.length_append]; omega
      | run hd buf0 =>
        obtain ⟨r, rfl, h1, -⟩ := hg
        cases ps with
        | nil =>
          cases hgs.nil_inv
          obtain ⟨buf, e⟩ := recreate_last codec m pre xs hx r h1.ok (by rw [NotHeader, h1.named]; simp) fuel
          refine ⟨[], buf, (pre ++ fileOf (xs ++ [r])).length, ?_, rfl, by simp⟩
          simpa [RaMgr.addKeys] using e
        | cons p2 ps =>
          obtain ⟨g2, gs', rfl, hg2, hgs'⟩ := hgs.cons_inv
          clear hgs hok
          rename' gs' => gs, hgs' => hgs
          have hok := (all2_layout hgs).ok
          simp only [List.length_cons] at hn hf
          have hc' : (∀ p ∈ found ps, p.isEvent = true) ∨ ∀ r ∈ gs.flatten, isCompressed r.opts = false := by
            rcases hc with hc | hc
            · exact .inl fun p hp => hc p (by simp [found, hp])
            · exact .inr fun r hr => hc r (by simp only [List.flatten_cons, List.mem_append]; exact .inr (.inr hr))
          have main : ∃ (s : Rec) (ys : List Rec), g2 = s :: ys ∧ (∀ y ∈ ys, y.Ok ∧ NotHeader y) ∧ ∃ m', m' = { m with buf := s.header ++ s.data } ∧ ∀ f,
              RaMgr.recreateLoop codec (f + 1) m (ready (pre ++ fileOf (xs ++ ([r] :: g2 :: gs).flatten)) pre.length) =
              RaMgr.recreateLoop codec f (m'.addKeys [(p2.key, (pre ++ fileOf (xs ++ [r])).length)])
                (ready (pre ++ fileOf (xs ++ ([r] :: g2 :: gs).flatten)) (pre ++ fileOf (xs ++ [r, s])).length) := by
            cases p2 with
            | run hd2 buf2 =>
              obtain ⟨s, rfl, k1, k2, k3⟩ := hg2
              obtain ⟨d, e, ρ, dev, d1, d2, d3⟩ := legible_run codec hd2 buf2 s k1 k2 k3
              have hplain : isCompressed s.opts = false := by
                rcases hc with hc | hc
                · have := hc (.run hd2 buf2) (by simp [found])
                  simp [Put.isEvent] at this
                · exact hc s (by simp)
              have hd' : d = s.data := by
                unfold plainOf at d1
                rw [hplain] at d1
                simp at d1
                exact d1.symm
              refine ⟨s, [], rfl, by simp, _, rfl, ?_⟩
              intro f
              have := recreate_read codec m pre xs hx r s h1.ok k1.ok (by rw [NotHeader, h1.named]; simp) gs.flatten hok f d d1 (some ⟨e.run, -1⟩)
                (.inr (.inl ⟨k1.named, e, ρ, dev, by rw [← hd']; exact d2, rfl⟩))
              rw [d3] at this
              simpa [Put.key] using this
            | event hd2 cols2 buf2 =>
              obtain ⟨s, s', rfl, k1, k2⟩ := hg2
              obtain ⟨d, e, ρ, dev, d1, d2, d3⟩ := legible_event codec hd2 cols2 buf2 (hl _ (by simp)) s k1
              refine ⟨s, [s'], rfl, ?_, _, rfl, ?_⟩
              · intro y hy
                simp only [List.mem_singleton] at hy
                subst hy
                exact ⟨k2.ok, by rw [NotHeader, k2.named]; decide⟩
              intro f
              have := recreate_read codec m pre xs hx r s h1.ok k1.ok (by rw [NotHeader, h1.named]; simp) (s' :: gs.flatten) (by
                intro y hy
                rcases List.mem_cons.1 hy with rfl | hy
                · exact k2.ok
                · exact hok y hy) f d d1 (some ⟨e.run, e.evt⟩)
                (.inl ⟨k1.named, e, ρ, dev, d2, rfl⟩)
              rw [d3] at this
              simpa [Put.key] using this
          obtain ⟨s, ys, rfl, hys, m', hm', hstep⟩ := main
          obtain ⟨L, buf, q, e1, e2, e3⟩ := ih ps (by omega) gs hgs (fun p hp => hl p (by simp [hp])) hc' fuel (by omega) (m'.addKeys [(p2.key, (pre ++ fileOf (xs ++ [r])).length)])
            (pre ++ fileOf (xs ++ [r, s])) ys hys
          have hB : pre ++ fileOf (xs ++ [r, s]) ++ fileOf (ys ++ gs.flatten) = pre ++ fileOf (xs ++ ([r] :: (s :: ys) :: gs).flatten) := by
            simp [fileOf_append, fileOf_cons, fileOf_nil]
          rw [hB] at e1
          refine ⟨(p2.key, (pre ++ fileOf (xs ++ [r])).length) :: L, buf, q, ?_, ?_, ?_⟩
          · rw [hstep, e1, addKeys_append, addKeys_eq, addKeys_eq, hm']
            rfl
          · rw [List.map_cons, e2]
            rfl
          · intro k pos hk
            rcases List.mem_cons.1 hk with hk | hk
            · cases hk
              refine ⟨[.run hd buf0], p2, ps, xs ++ [r], (s :: ys) ++ gs.flatten, rfl, by simp [found], rfl, by simp, by rw [List.length_append], ?_⟩
              exact .put p2 _ _ _ hg2 (all2_layout hgs)
            · obtain ⟨a, p, b, ra, rb, f1, f2, f3, f4, f5, f6⟩ := e3 k pos hk
              refine ⟨.run hd buf0 :: p2 :: a, p, b, xs ++ [r, s] ++ ra, rb, by rw [f1]; rfl, by simp [found, f2], f3, ?_, ?_, f6⟩
              · simp [f4]
              · rw [f5]
                simp only [fileOf_append, List.length_append]; omega

/-- A file without random access records is opened for direct access. -/
theorem open_recreate (cfg : RConfig) (ps : List Put) (gs : List (List Rec)) (h : All2 (Holds cfg.codec cfg.std) ps gs) (hl : ∀ p ∈ ps, Legible p)
    (hc : (∀ p ∈ found ps, p.isEvent = true) ∨ ∀ r ∈ gs.flatten, isCompressed r.opts = false) (name : Str) (bytes : List Byte) (hb : bytes = fileOf gs.flatten)
    (hlen : 136 ≤ bytes.length) (hm : (bytes.drop (bytes.length - 132)).take 4 ≠ bigEndian 4 recordMarker) :
    ∃ ra L, Reader.openFiles cfg true [(name, bytes)] = (.ok (), { files := [(name, bytes)], stream := { bytes := bytes }, readMap := true, ra := ra }) ∧
      ra.map = ({} : RunEventMap).addAll L ∧ L.map (·.1) = (found ps).map Put.key ∧
      ∀ k pos, (k, pos) ∈ L → ∃ pre p post ra rb, ps = pre ++ p :: post ∧ p ∈ found ps ∧ p.key = k ∧ bytes = fileOf (ra ++ rb) ∧ pos = BitVec.ofNat 64 (fileOf ra).length ∧
        Layout cfg.codec cfg.std (p :: post) rb := by
  obtain ⟨buf, e1⟩ := readAccessAt_none {} bytes 0 hlen hm
  have hcount : ps.length ≤ gs.flatten.length := by
    clear hl hc hb
    induction ps generalizing gs with
    | nil => simp
    | cons p ps ih =>
      obtain ⟨g, gs, rfl, h1, h2⟩ := h.cons_inv
      have := ih gs h2
      have : 1 ≤ g.length := by
        cases p with
        | run => obtain ⟨r, rfl, -⟩ := h1; simp
        | event => obtain ⟨r, r', rfl, -⟩ := h1; simp
      simp only [List.length_cons, List.flatten_cons, List.length_append]
      omega
  have hfuel : ps.length < recordFuel (ready bytes 0) := by
    have := fileOf_length gs.flatten
    show _ < bytes.length + 2
    rw [hb]
    omega
  obtain ⟨L, buf', q, f1, f2, f3⟩ := recreate_loop ps.length ps (Nat.le_refl _) gs h hl hc (recordFuel (ready bytes 0)) hfuel { ({} : RaMgr) with buf := buf } [] [] (by simp)
  simp only [List.nil_append, List.length_nil, ← hb] at f1
  refine ⟨{ ({} : RaMgr) with map := ({} : RunEventMap).addAll (L.map fun e => (e.1, BitVec.ofNat 64 e.2)), buf := buf' }, L.map fun e => (e.1, BitVec.ofNat 64 e.2), ?_, rfl, ?_, ?_⟩
  · unfold Reader.openFiles Reader.openFile
    simp only [if_true]
    unfold RaMgr.createEventMap
    rw [show ({ bytes := bytes } : IStream) = ready bytes 0 from rfl, e1]
    simp only
    unfold RaMgr.recreateEventMap
    have s0 : ∀ q, seekStream (ready bytes q) 0 = (.ok (), ready bytes 0) := fun q => seekStream_pos bytes q 0
    simp only [s0, f1]
    rw [addKeys_eq]
  · rw [List.map_map]
    exact f2
  · intro k pos hk
    obtain ⟨⟨k', pos'⟩, h1, h2⟩ := List.mem_map.1 hk
    cases h2
    obtain ⟨a, p, b, ra, rb, g1, g2, g3, g4, g5, g6⟩ := f3 _ _ h1
    simp only [List.nil_append, List.length_nil, Nat.zero_add] at g4 g5
    exact ⟨a, p, b, ra, rb, g1, g2, g3, by rw [hb, g4], by rw [g5], g6⟩

/-- Writing things one after the other, with what is known about compression. -/
theorem over_putAll_opts (codec : Codec) (hcodec : Lossless codec) (std : Std Pid) (compress : Bool) (ps : List Put) (hp : ∀ p ∈ ps, p.Ok codec std compress)
    (A : List Byte) (ra : RaMgr) :
    ∃ gs ra', All2 (Holds codec std) ps gs ∧ (∀ r ∈ gs.flatten, isCompressed r.opts = compress) ∧
      putAll codec std compress ⟨some (over A []), ra⟩ ps = .ok ⟨some (over (A ++ fileOf gs.flatten) []), ra'⟩ := by
  induction ps generalizing A ra with
  | nil => exact ⟨[], ra, All2.nil _, by simp, by simp [putAll, fileOf_nil]⟩
  | cons p ps ih =>
    have h0 : ∃ g ra', Holds codec std p g ∧ (∀ r ∈ g, isCompressed r.opts = compress) ∧
        p.call codec std compress ⟨some (over A []), ra⟩ = (.ok (), ⟨some (over (A ++ fileOf g) []), ra'⟩) := by
      have hp := hp p (by simp)
      cases p with
      | run h buf =>
        obtain ⟨r, h1, hc, h2⟩ := over_writeJob codec hcodec buf A [] runRecordName [h.block] compress hp.2
        refine ⟨[r], ra.add ⟨h.run, -1⟩ A.length, ⟨r, rfl, h1, hp.1, hp.2.writable⟩, by simpa using hc, ?_⟩
        simp only [Put.call, Writer.writeRunHeader, h2, fileOf_cons, fileOf_nil, List.append_nil, List.drop_nil]
        rfl
      | event h cols buf =>
        obtain ⟨r, h1, hc, h2⟩ := over_writeJob codec hcodec buf.1 A [] headerRecordName _ compress hp.1
        obtain ⟨r', h3, hc', h4⟩ := over_writeJob codec hcodec buf.2 (A ++ r.wire) [] eventRecordName _ compress hp.2
        refine ⟨[r, r'], ra.add ⟨h.run, h.evt⟩ A.length, ⟨r, r', rfl, h1, h3⟩, by simp [hc, hc'], ?_⟩
        simp only [Put.call, Writer.writeEvent, h2, h4, fileOf_cons, fileOf_nil, List.append_nil, List.append_assoc, List.drop_nil]
        rfl
    obtain ⟨g, ra1, h1, h2, h3⟩ := h0
    obtain ⟨gs, ra', h4, h5, h6⟩ := ih (fun q hq => hp q (by simp [hq])) (A ++ fileOf g) ra1
    refine ⟨g :: gs, ra', All2.cons h1 h4, ?_, ?_⟩
    · intro r hr
      rw [List.flatten_cons, List.mem_append] at hr
      rcases hr with hr | hr
      · exact h2 r hr
      · exact h5 r hr
    · unfold putAll
      rw [h3]
      simp only [h6, List.flatten_cons, fileOf_append, List.append_assoc]

end Lcio
