import Verif.Spec.StdHep
import Verif.Props.Xdr
/-
Lemmas about reading StdHep files.
-/
namespace Util
open Sio Spec Props

/-- The things a file open for reading has ahead. -/
structure Ahead (x : LXdr) (file : List Byte) (items : List XdrItem) : Prop where
  file : x.file = file
  err : x.err = 0
  ok : ∀ it ∈ items, it.Ok
  at_ : ∃ pre rest, At x pre (items.flatMap XdrItem.bytes ++ rest)

/-- A function reads things and returns a value. -/
def Reads {α : Type} (m : Rd α) (items : List XdrItem) (a : α) : Prop :=
  ∀ x file more, Ahead x file (items ++ more) → ∃ x', m x = .ok (a, x') ∧ Ahead x' file more

theorem Reads.pure {α : Type} (a : α) : Reads (Pure.pure a : Rd α) [] a := fun x _ _ h => ⟨x, rfl, h⟩

theorem Reads.bind {α β : Type} {m : Rd α} {f : α → Rd β} {i j : List XdrItem} {a : α} {b : β} (h1 : Reads m i a) (h2 : Reads (f a) j b) :
    Reads (m >>= f) (i ++ j) b := by
  intro x file more h
  rw [List.append_assoc] at h
  obtain ⟨x1, e1, h1⟩ := h1 x file (j ++ more) h
  obtain ⟨x2, e2, h2⟩ := h2 x1 file more h1
  refine ⟨x2, ?_, h2⟩
  show (m x >>= fun p => f p.1 p.2) = _
  rw [e1]
  exact e2

theorem Reads.step {α β : Type} {m : Rd α} {f : α → Rd β} {it : XdrItem} {j : List XdrItem} {a : α} {b : β} (h1 : Reads m [it] a) (h2 : Reads (f a) j b) :
    Reads (m >>= f) (it :: j) b := Reads.bind h1 h2

/-- From a statement about one thing at a position. -/
theorem Reads.of_at {α : Type} {m : Rd α} {it : XdrItem} {a : α}
    (h : ∀ x pre rest, it.Ok → At x pre (it.bytes ++ rest) → ∃ x', m x = .ok (a, x') ∧ (x'.err = 0 ∨ x'.err = x.err) ∧ At x' (pre ++ it.bytes) rest) :
    Reads m [it] a := by
  intro x file more ha
  obtain ⟨pre, rest, hat⟩ := ha.at_
  rw [List.singleton_append, List.flatMap_cons, List.append_assoc] at hat
  obtain ⟨x', e, he, hat'⟩ := h x pre _ (ha.ok it (by simp)) hat
  refine ⟨x', e, ?_, ?_, fun i hi => ha.ok i (by simp [hi]), _, _, hat'⟩
  · rw [hat'.file, List.append_assoc, ← hat.file]; exact ha.file
  · rcases he with he | he
    · exact he
    · rw [he]; exact ha.err

theorem reads_long (n : Int) : Reads rdLong [.long n] n := by
  refine Reads.of_at fun x pre rest hok h => ?_
  have e := checkReadLong_there x pre rest n hok h
  refine ⟨{ x with pos := (pre ++ xdrLong n).length }, ?_, Or.inr rfl, h.move⟩
  show Except.ok (x.checkReadLong.2.1, x.checkReadLong.2.2) = _
  rw [e]

theorem reads_double (d : W64) : Reads rdDouble [.double d] d := by
  refine Reads.of_at fun x pre rest _ h => ?_
  have e := checkReadDouble_there x pre rest d h
  refine ⟨{ x with pos := (pre ++ xdrDouble d).length }, ?_, Or.inr rfl, h.move⟩
  show Except.ok (x.checkReadDouble.2.1, x.checkReadDouble.2.2) = _
  rw [e]

theorem reads_float (f : W32) : Reads rdFloat [.float f] f := by
  refine Reads.of_at fun x pre rest _ h => ?_
  refine ⟨{ x with pos := (pre ++ bigEndian 4 f.toNat).length }, ?_, Or.inr rfl, h.move⟩
  have hb : (bigEndian 4 f.toNat).length = 4 * 1 := bigEndian_length _ _
  show Except.ok (x.readFloat) = _
  unfold LXdr.readFloat
  rw [h.reads, h.opened, h.fread 4 1 (by decide) hb]
  simp only [Bool.false_eq_true, if_false, Bool.not_true, ne_eq, not_true, XdrItem.bytes]
  rw [bswap32_bigEndian, Nat.mod_eq_of_lt f.isLt, BitVec.ofNat_toNat, BitVec.setWidth_eq, h.reads, h.opened]

theorem reads_string (s : List Byte) : Reads rdString [.string s] (some (s ++ List.replicate (padding s.length) 0), (s.length : Int)) := by
  refine Reads.of_at fun x pre rest hok h => ?_
  obtain ⟨x', e, he, h'⟩ := C60_reads_strings s pre rest hok x h
  refine ⟨x', ?_, Or.inl he, h'⟩
  unfold rdString
  rw [e]

theorem reads_longs (l : List Int) : Reads rdLongs [.longs l] (some l, (l.length : Int)) := by
  refine Reads.of_at fun x pre rest hok h => ?_
  obtain ⟨x', e, he, h'⟩ := (C60_reads_arrays pre rest x).1 l hok.1 hok.2 h
  refine ⟨x', ?_, Or.inl he, h'⟩
  unfold rdLongs
  rw [e]; rfl

theorem reads_doubles (l : List W64) : Reads rdDoubles [.doubles l] (some l, (l.length : Int)) := by
  refine Reads.of_at fun x pre rest hok h => ?_
  obtain ⟨x', e, he, h'⟩ := (C60_reads_arrays pre rest x).2 l hok h
  refine ⟨x', ?_, Or.inl he, h'⟩
  unfold rdDoubles
  rw [e]; rfl

/-- One step of a function that reads. -/
macro "rd_step" : tactic => `(tactic| first | exact Reads.pure _ | refine Reads.step (reads_long _) ?_ | refine Reads.step (reads_string _) ?_ | refine Reads.step (reads_longs _) ?_ | refine Reads.step (reads_doubles _) ?_ | refine Reads.step (reads_double _) ?_ | refine Reads.step (reads_float _) ?_)

/-! ## Tables -/

/-- An event table in memory is that of the file, and `ievt` is `i`. -/
structure TableIs (lt : LTable) (t : HepTable) (i : Nat) : Prop where
  ievt : lt.ievt = i
  next : lt.nextlocator = t.next
  num : lt.numEvts = t.entries.length
  ptrs : lt.ptrEvents = some (t.entries.map (fun e => (e.1 : Int)) ++ t.spare)

theorem reads_table (lt : LTable) (t : HepTable) : ∃ lt', Reads lt.read t.items lt' ∧ TableIs lt' t 0 := by
  refine ⟨{ ievt := 0, nextlocator := t.next, numEvts := t.entries.length, ptrEvents := some (t.entries.map (fun e => (e.1 : Int)) ++ t.spare) }, ?_, rfl, rfl, rfl, rfl⟩
  unfold LTable.read HepTable.items
  iterate 3 rd_step
  simp only [ne_eq, not_true, if_false]
  repeat' rd_step

/-! ## Events -/

/-- The event in memory is that of the file. -/
structure EventIs (ev : LEvent) (e : HepEvent) : Prop where
  full : ev.isEmpty = false
  number : ev.nevhep = e.number
  n : ev.nhep = e.tracks.length
  status : ev.isthep = some (e.tracks.map (·.status))
  pid : ev.idhep = some (e.tracks.map (·.pid))
  mothers : ev.jmohep = some (e.tracks.flatMap fun t => [t.mother1, t.mother2])
  daughters : ev.jdahep = some (e.tracks.flatMap fun t => [t.daughter1, t.daughter2])
  momentum : ev.phep = some (e.tracks.flatMap fun t => [t.px, t.py, t.pz, t.e, t.m])
  vertex : ev.vhep = some (e.tracks.flatMap fun t => [t.x, t.y, t.z, t.t])
  scale : ev.scale = e.ev4.map (·.scales)
  spin : ev.spin = e.ev4.map fun v => v.spins.flatMap fun s => [s.1, s.2.1, s.2.2]
  color : ev.colorflow = e.ev4.map fun v => v.colors.flatMap fun c => [c.1, c.2]

/-- The numbers of an event that are kept if the next one has none. -/
structure Kept (ev : LEvent) (weight aqed aqcd : W64) (process : Int) : Prop where
  weight : ev.eventweight = weight
  aqed : ev.alphaqed = aqed
  aqcd : ev.alphaqcd = aqcd
  process : ev.idrup = process

theorem reads_run (ev : LEvent) (r : HepRun) : Reads ev.readRun r.items { ev with isEmpty := true } := by
  unfold LEvent.readRun HepRun.items
  repeat' rd_step

/-- An event before its particles are read: blocks as listed in the file. -/
structure Fresh (ev : LEvent) (codes : List Int) (run : Int) (w a c : W64) (p : Int) : Prop where
  empty : ev.isEmpty = true
  ids : ev.blockIds = some codes ∨ (ev.blockIds = none ∧ codes = [])
  scale : ev.scale = none
  spin : ev.spin = none
  color : ev.colorflow = none
  run : ev.runnum = run
  kept : Kept ev w a c p

/-- What is kept after an event. -/
def KeptAfter (e : HepEvent) (ev : LEvent) (w a c : W64) (p : Int) : Prop :=
  match e.ev4 with
  | none => Kept ev w a c p
  | some v => Kept ev v.weight v.alphaQed v.alphaQcd v.process

/-- The event in memory after the particles were read. -/
def LEvent.withTracks (ev : LEvent) (number : Int) (tracks : List LTrack) : LEvent :=
  { ev with nevhep := number, nhep := tracks.length, isthep := some (tracks.map (·.status)), idhep := some (tracks.map (·.pid)),
            jmohep := some (tracks.flatMap fun t => [t.mother1, t.mother2]), jdahep := some (tracks.flatMap fun t => [t.daughter1, t.daughter2]),
            phep := some (tracks.flatMap fun t => [t.px, t.py, t.pz, t.e, t.m]), vhep := some (tracks.flatMap fun t => [t.x, t.y, t.z, t.t]) }

theorem reads_stdhep (ev : LEvent) (number : Int) (tracks : List LTrack) :
    Reads ev.readStdHep (HepEvent.items { number, tracks }) (ev.withTracks number tracks) := by
  unfold LEvent.readStdHep HepEvent.items LEvent.withTracks
  simp only [List.append_nil]
  repeat' rd_step

theorem reads_event (ev : LEvent) (e : HepEvent) (codes : List Int) (run : Int) (w a c : W64) (p : Int) (h : Fresh ev codes run w a c p) (v : Option (List Byte)) :
    ∃ ev', Reads (LEvent.readBlock { ev with version := v, isEmpty := false } e.code) e.items ev' ∧ EventIs ev' e ∧ ev'.runnum = run ∧ KeptAfter e ev' w a c p := by
  obtain ⟨number, tracks, ev4⟩ := e
  unfold LEvent.readBlock
  have h0 := reads_stdhep { ev with version := v, isEmpty := false } number tracks
  cases ev4 with
  | none =>
    simp only [HepEvent.code, Option.isSome_none, Bool.false_eq_true, if_false, if_true]
    exact ⟨_, h0, ⟨rfl, rfl, rfl, rfl, rfl, rfl, rfl, rfl, rfl, h.scale, h.spin, h.color⟩, h.run, h.kept.weight, h.kept.aqed, h.kept.aqcd, h.kept.process⟩
  | some q =>
    simp only [HepEvent.code, Option.isSome_some, if_true, show ¬ ((201 : Int) = 101) by decide, if_false]
    let ev' : LEvent := { LEvent.withTracks { ev with version := v, isEmpty := false } number tracks with
      eventweight := q.weight, alphaqed := q.alphaQed, alphaqcd := q.alphaQcd, scale := some q.scales,
      spin := some (q.spins.flatMap fun s => [s.1, s.2.1, s.2.2]), colorflow := some (q.colors.flatMap fun c => [c.1, c.2]), idrup := q.process }
    refine ⟨ev', ?_, ⟨rfl, rfl, rfl, rfl, rfl, rfl, rfl, rfl, rfl, rfl, rfl, rfl⟩, h.run, rfl, rfl, rfl, rfl⟩
    refine Reads.bind (i := HepEvent.items { number, tracks }) h0 ?_
    unfold LEvent.readEv4
    repeat' rd_step

theorem reads_blocks (bl : Int) (bv : List Byte) (event : Option HepEvent) (codes spare : List Int) (run : Int) (w a c : W64) (p : Int) :
    ∀ (runs : List HepRun) (i : Nat) (ev : LEvent), Fresh ev codes run w a c p →
      codes.drop i = runs.map HepRun.code ++ (event.map HepEvent.code).toList ++ spare →
      ∃ ev', Reads (LEvent.readBlocks (runs.length + event.toList.length) i ev)
        ((runs.map (fun b => (b.code, b.items)) ++ (event.map fun e => (e.code, e.items)).toList).flatMap fun b =>
          [.long b.1, .long bl, .string bv] ++ b.2) ev' ∧ ev'.runnum = run ∧
        (event = none → ev'.isEmpty = true ∧ Kept ev' w a c p) ∧ ∀ e, event = some e → EventIs ev' e ∧ KeptAfter e ev' w a c p := by
  intro runs
  induction runs with
  | nil =>
    intro i ev h hc
    cases event with
    | none =>
      refine ⟨ev, ?_, h.run, fun _ => ⟨h.empty, h.kept⟩, fun e he => by cases he⟩
      exact Reads.pure _
    | some e =>
      have hid : ev.blockIds.bind (·[i]?) = some e.code := by
        have h1 : codes[i]? = some e.code := by
          have := congrArg (·[0]?) hc
          simpa [List.getElem?_drop] using this
        rcases h.ids with h2 | h2
        · rw [h2]; exact h1
        · rw [h2.2] at h1; cases h1
      obtain ⟨ev', h1, h2, h3, h4⟩ := reads_event ev e codes run w a c p h (some (bv ++ List.replicate (padding bv.length) 0))
      refine ⟨ev', ?_, h3, (fun hn => by cases hn), (fun e' he => by cases he; exact ⟨h2, h4⟩)⟩
      show Reads (LEvent.readBlocks 1 i ev) _ _
      unfold LEvent.readBlocks
      simp only [List.map_nil, Option.map_some, Option.toList_some, List.nil_append, List.flatMap_cons, List.flatMap_nil, List.append_nil,
        List.cons_append, hid]
      iterate 3 rd_step
      rw [← List.append_nil e.items]
      exact Reads.bind h1 (Reads.pure _)
  | cons r runs ih =>
    intro i ev h hc
    have hid : ev.blockIds.bind (·[i]?) = some r.code := by
      have h1 : codes[i]? = some r.code := by
        have := congrArg (·[0]?) hc
        simpa [List.getElem?_drop] using this
      rcases h.ids with h2 | h2
      · rw [h2]; exact h1
      · rw [h2.2] at h1; cases h1
    have hc' : codes.drop (i + 1) = runs.map HepRun.code ++ (event.map HepEvent.code).toList ++ spare := by
      have := congrArg (·.drop 1) hc
      simpa [List.drop_drop] using this
    have hf : Fresh { ev with version := some (bv ++ List.replicate (padding bv.length) 0), isEmpty := true } codes run w a c p :=
      ⟨rfl, h.ids, h.scale, h.spin, h.color, h.run, h.kept.weight, h.kept.aqed, h.kept.aqcd, h.kept.process⟩
    obtain ⟨ev', h1, h2⟩ := ih (i + 1) _ hf hc'
    refine ⟨ev', ?_, h2⟩
    rw [List.length_cons, Nat.add_right_comm]
    unfold LEvent.readBlocks
    simp only [List.map_cons, List.cons_append, List.flatMap_cons, List.nil_append, hid]
    iterate 3 rd_step
    refine Reads.bind ?_ h1
    have : r.code = 106 ∨ r.code = 107 := by
      unfold HepRun.code; split
      · exact Or.inr rfl
      · exact Or.inl rfl
    unfold LEvent.readBlock
    rw [if_neg (by omega), if_neg (by omega), if_pos this]
    exact reads_run _ r

theorem firstChar_padded (s : List Byte) : firstChar (s ++ List.replicate (padding s.length) 0) = 50 ↔ s.head? = some 50 := by
  cases s with
  | nil => simp [firstChar, padding]
  | cons b s => simp [firstChar]

theorem reads_record (ev : LEvent) (r : HepRecord) (w a c : W64) (p : Int) (hk : Kept ev w a c p) :
    ∃ ev', Reads ev.read r.items ev' ∧ ev'.runnum = r.run ∧
      (r.event = none → ev'.isEmpty = true ∧ Kept ev' w a c p) ∧ ∀ e, r.event = some e → EventIs ev' e ∧ KeptAfter e ev' w a c p := by
  let ev0 : LEvent := { ev.cleanup with runnum := r.run, version := some (r.version ++ List.replicate (padding r.version.length) 0) }
  have hf : ∀ ids, (ids = some r.codes ∨ (ids = none ∧ r.codes = [])) → Fresh { ev0 with blockIds := ids } r.codes r.run w a c p := fun ids h =>
    ⟨rfl, h, rfl, rfl, rfl, rfl, hk.weight, hk.aqed, hk.aqcd, hk.process⟩
  have hcodes : r.codes.drop 0 = r.runs.map HepRun.code ++ (r.event.map HepEvent.code).toList ++ r.spare := by
    unfold HepRecord.codes HepRecord.blocks
    cases r.event <;> simp [Function.comp_def]
  have hlen : ((r.blocks.length : Nat) : Int).toNat = r.runs.length + r.event.toList.length := by
    unfold HepRecord.blocks
    cases r.event <;> simp
  by_cases h2 : r.version.head? = some 50
  · by_cases hd : r.codes = []
    · obtain ⟨ev', h3, h4⟩ := reads_blocks r.blockLength r.blockVersion r.event r.codes r.spare r.run w a c p r.runs 0 _ (hf none (Or.inr ⟨rfl, hd⟩)) hcodes
      refine ⟨ev', ?_, h4⟩
      unfold LEvent.read HepRecord.items
      simp only [if_pos h2, if_pos hd]
      iterate 3 rd_step
      simp only [ne_eq, not_true, if_false]
      iterate 6 rd_step
      simp only [firstChar_padded, h2, if_true]
      iterate 2 rd_step
      refine Reads.bind (i := []) (a := ev0) (by rw [if_neg (by simp [hd])]; exact Reads.pure _) ?_
      simp only [not_true, if_false]
      rw [hlen]
      exact h3
    · obtain ⟨ev', h3, h4⟩ := reads_blocks r.blockLength r.blockVersion r.event r.codes r.spare r.run w a c p r.runs 0 _ (hf _ (Or.inl rfl)) hcodes
      refine ⟨ev', ?_, h4⟩
      unfold LEvent.read HepRecord.items
      simp only [if_pos h2, if_neg hd]
      iterate 3 rd_step
      simp only [ne_eq, not_true, if_false]
      iterate 6 rd_step
      simp only [firstChar_padded, h2, if_true]
      iterate 2 rd_step
      refine Reads.bind (i := [.longs r.codes, .longs r.pointers]) (a := { ev0 with blockIds := some r.codes }) ?_ ?_
      · rw [if_pos (by simpa using hd)]
        repeat' rd_step
      · simp only [not_true, if_false]
        rw [hlen]
        exact h3
  · obtain ⟨ev', h3, h4⟩ := reads_blocks r.blockLength r.blockVersion r.event r.codes r.spare r.run w a c p r.runs 0 _ (hf _ (Or.inl rfl)) hcodes
    refine ⟨ev', ?_, h4⟩
    unfold LEvent.read HepRecord.items
    simp only [if_neg h2]
    iterate 3 rd_step
    simp only [ne_eq, not_true, if_false]
    iterate 6 rd_step
    simp only [firstChar_padded, h2, if_false]
    iterate 2 rd_step
    rw [hlen]
    exact h3

/-! ## The header -/

theorem cString_padded (s : List Byte) (h : 0 ∉ s) (n : Nat) : cString (s ++ List.replicate n 0) = s := by
  unfold cString
  have h2 : ∀ n : Nat, (List.replicate n (0 : Byte)).takeWhile (fun b => decide (b ≠ 0)) = [] := by
    intro n; cases n <;> simp [List.replicate_succ]
  rw [List.takeWhile_append_of_pos, h2, List.append_nil]
  intro b hb
  simp only [ne_eq, decide_not, Bool.not_eq_eq_eq_not, Bool.not_true, decide_eq_false_iff_not]
  exact fun hb' => h (hb' ▸ hb)

theorem cString_padded_le (s : List Byte) (n : Nat) : (cString (s ++ List.replicate n 0)).length ≤ s.length := by
  unfold cString
  have h2 : ∀ n : Nat, (List.replicate n (0 : Byte)).takeWhile (fun b => decide (b ≠ 0)) = [] := by
    intro n; cases n <;> simp [List.replicate_succ]
  rw [List.takeWhile_append]
  split
  · rw [h2, List.append_nil]; exact Nat.le_refl _
  · exact (List.takeWhile_sublist _).length_le

theorem reads_strings (l : List (List Byte)) : Reads (rdStrings l.length) (l.map XdrItem.string) () := by
  induction l with
  | nil => exact Reads.pure _
  | cons s l ih => exact Reads.step (reads_string s) ih

theorem reads_header (h : HepHeader) (hv : 0 ∉ h.version) (t : HepTable) :
    ∃ lt, Reads rdFileHeader (h.items ++ t.items) (h.expected, h.events, lt) ∧ TableIs lt t 0 := by
  obtain ⟨lt, ht, hi⟩ := reads_table {} t
  refine ⟨lt, ?_, hi⟩
  have hs : str "2.00" = [50, 46, 48, 48] ∧ str "1.00" = [49, 46, 48, 48] := by decide
  unfold rdFileHeader HepHeader.items
  simp only [List.append_assoc, List.cons_append, List.nil_append]
  rd_step
  simp only [ne_eq, not_true, if_false]
  iterate 5 rd_step
  have rest : Reads (do
      let expect ← rdLong
      let numevts ← rdLong
      let _ ← rdLong
      let _ ← rdLong
      let nBlocks ← rdLong
      let nNTuples ← (if firstChar (h.version ++ List.replicate (padding h.version.length) 0) = 50 then rdLong else pure 0 : Rd Int)
      let ids ← rdLongs
      let nBlocks := if ids.1 = none ∧ ids.2 = 0 then nBlocks else ids.2
      if nBlocks < 0 then rdFail .lengthError
      else
        rdStrings nBlocks.toNat
        if nNTuples > 0 then rdSetError lshNotSupported
        let t ← LTable.read {}
        pure (expect, numevts, t))
      (.long h.expected :: .long h.events :: .long h.firstTable :: .long h.dimTable :: .long h.nBlocks ::
        ((if h.version.head? = some 50 then [.long 0] else []) ++ (.longs (h.blocks.map (·.1)) :: (h.blocks.map (fun b => .string b.2) ++ t.items))))
      (h.expected, h.events, lt) := by
    iterate 5 rd_step
    refine Reads.bind (a := 0) ?_ ?_
    · simp only [firstChar_padded]
      split
      · exact reads_long 0
      · exact Reads.pure _
    · rd_step
      simp only [reduceCtorEq, false_and, if_false, List.length_map]
      rw [if_neg (by omega)]
      refine Reads.bind (a := ()) ?_ ?_
      · have := reads_strings (h.blocks.map (·.2))
        rw [List.map_map, List.length_map] at this
        exact this
      · simp only [gt_iff_lt, Int.lt_irrefl, if_false]
        refine (List.append_nil t.items) ▸ Reads.bind ht (Reads.pure _)
  simp only [cString_padded _ hv, hs.1, hs.2]
  by_cases hw : h.version = [50, 46, 48, 48] ∨ h.version = [49, 46, 48, 48]
  · have hlt : ¬ ((h.date.length : Int) < ((cString (h.date ++ List.replicate (padding h.date.length) 0)).length : Nat)) := by
      have := cString_padded_le h.date (padding h.date.length)
      omega
    simp only [if_pos hw, if_neg (show ¬ ((h.date.length : Int) + 1 < 0) by omega), if_neg hlt]
    exact rest
  · simp only [if_neg hw]
    refine Reads.step (reads_string _) ?_
    exact rest

end Util
