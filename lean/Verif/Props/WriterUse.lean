import Verif.Lcio.WriterUseLemmas
import Verif.Util.AddAccessLemmas
import Verif.Props.SessionCases
/-
**C91** A writer that is used for several files.
-/
namespace Props
open Sio Spec Util Lcio

/-- Everything that is written can be. -/
structure Writes (codec : Codec) (std : Std Pid) (W : List Put) : Prop where
  ok : ∀ p ∈ W, ∀ compress, p.Ok codec std compress
  runs : ∀ p ∈ W, ∀ q ∈ W, -2 ^ 31 ≤ p.key.run.toInt - q.key.run.toInt ∧ p.key.run.toInt - q.key.run.toInt < 2 ^ 31

/-- A file is open. -/
structure InUse (codec : Codec) (std : Std Pid) (mt : Bool) (W : List Put) (k : Nat) (b : Books) (s : WriterUse) (name : Str) (ps : List Put) : Prop where
  named : s.name = name
  good : s.good = true
  null : mt = true → s.null = false
  sub : ∀ p ∈ ps, p ∈ W
  cont : s.disk name = s.wrt.stream.map (·.bytes)
  ex : ∃ ss u, b.files name = some ss ∧ (ss = [] ∨ SessionsOk codec std ss) ∧ Going codec std ss b.compress ps u ∧ AlikeW u s.wrt ∧ u.stream ≠ none ∧
    (allPuts ss).length + ps.length + k < 2 ^ 27

/-- The writer and what the files should hold, when at most `k` more things will be written. -/
structure UseInv (codec : Codec) (std : Std Pid) (mt : Bool) (W : List Put) (k : Nat) (b : Books) (s : WriterUse) : Prop where
  kept : FilesKept codec std s.disk b
  level : s.compress = b.compress
  room : ∀ name ss, b.files name = some ss → (allPuts ss).length + k < 2 ^ 27
  small : k < 2 ^ 27
  closed : b.current = none → Idle s.wrt
  opened : ∀ name ps, b.current = some (name, ps) → InUse codec std mt W k b s name ps

theorem initAppend_short (codec : Codec) (ra : RaMgr) (bytes : List Byte) (h : bytes.length < 136) :
    ∃ x, ra.initAppend codec { bytes := bytes } = (.error .ioException, x, ra) := by
  have h1 : seekStream { bytes := bytes } (-(randomAccessSize : Int)) = (.error .ioException, { bytes := bytes, pos := bytes.length }) := by
    unfold seekStream
    rw [if_neg (by simp), if_pos (by decide), if_neg (by simp), if_pos (by unfold randomAccessSize; simp only; omega)]
  unfold RaMgr.initAppend RaMgr.readAccessAt
  simp only [h1]
  exact ⟨_, rfl⟩

theorem idle_fresh (mt : Bool) (s : WriterUse) (h : Idle s.wrt) : Idle (s.fresh mt).wrt := by
  unfold WriterUse.fresh
  split
  · exact ⟨h.stream, rfl, rfl, rfl⟩
  · exact h

theorem fresh_disk (mt : Bool) (s : WriterUse) : (s.fresh mt).disk = s.disk := by
  unfold WriterUse.fresh
  split <;> rfl

theorem fresh_compress (mt : Bool) (s : WriterUse) : (s.fresh mt).compress = s.compress := by
  unfold WriterUse.fresh
  split <;> rfl

theorem fresh_stream (mt : Bool) (s : WriterUse) : (s.fresh mt).wrt.stream = s.wrt.stream := by
  unfold WriterUse.fresh
  split <;> rfl

theorem fresh_null (mt : Bool) (s : WriterUse) : mt = true → (s.fresh mt).null = false := by
  intro h
  unfold WriterUse.fresh
  rw [if_pos h]

variable {codec : Codec} {std : Std Pid} {mt : Bool} {W : List Put} {k : Nat} {b : Books} {s : WriterUse}

/-- A new file. -/
theorem use_openNew (hi : UseInv codec std mt W k b s) (hc : b.current = none) (file : Str) :
    ∃ s', (s.fresh mt).openNew file = (.ok (), s') ∧
      UseInv codec std mt W k { b with files := setFile b.files file [], current := some (file, []) } s' := by
  have hid := idle_fresh mt s (hi.closed hc)
  unfold WriterUse.openNew
  simp only [hid.stream, fresh_disk]
  refine ⟨_, rfl, ?_, ?_, ?_, hi.small, by simp, ?_⟩
  · intro name hn
    have hne : name ≠ file := fun e => hn (by simp [e])
    have := hi.kept name (by rw [hc]; simp)
    simpa only [setFile, if_neg hne] using this
  · exact (fresh_compress mt s).trans hi.level
  · intro name ss h
    simp only [setFile] at h
    split at h
    · cases h; simpa [allPuts] using hi.small
    · exact hi.room name ss h
  · intro name ps h
    simp only [Option.some.injEq, Prod.mk.injEq] at h
    obtain ⟨rfl, rfl⟩ := h
    obtain ⟨u, u1, u2, u3⟩ := Going.start_new codec std b.compress _ hid
    refine ⟨rfl, rfl, fresh_null mt s, by simp, by simp [setFile], [], u, by simp [setFile], .inl rfl, u1, ?_, u3, by simpa [allPuts] using hi.small⟩
    exact ⟨u2.stream.symm, u2.ra.map.symm, u2.ra.list.symm, u2.ra.file.symm⟩

/-- A file that exists. -/
theorem use_openAppend (hcodec : Lossless codec) (hi : UseInv codec std mt W k b s) (hc : b.current = none) (file : Str) :
    ∃ s', (s.fresh mt).openAppend codec file = ((match b.files file with
        | none => .error .ioException
        | some ss => if Filled ss then .ok () else .error .ioException), s') ∧
      UseInv codec std mt W k (match b.files file with
        | none => b
        | some ss => if Filled ss then { b with current := some (file, []) } else b) s' := by
  have hid := idle_fresh mt s (hi.closed hc)
  have hk := hi.kept file (by rw [hc]; simp)
  have same : UseInv codec std mt W k b (s.fresh mt) :=
    ⟨by rw [fresh_disk]; exact hi.kept, by rw [fresh_compress]; exact hi.level, hi.room, hi.small, fun _ => hid, fun name ps h => by rw [hc] at h; cases h⟩
  unfold WriterUse.openAppend
  rw [fresh_disk]
  cases hf : b.files file with
  | none =>
    simp only [hf] at hk
    simp only [hk]
    exact ⟨_, rfl, same⟩
  | some ss =>
    simp only [hf] at hk
    obtain ⟨bytes, k1, k2, k3⟩ := hk
    simp only [k1]
    rcases k3 with k3 | ⟨compress, rfl⟩
    · have hfill : Filled ss = true := by
        obtain ⟨x, rest, rfl, hx⟩ := k3.first
        unfold Filled allPuts
        cases hp : x.puts with
        | nil => exact absurd hp hx
        | cons p ps => simp [hp]
      obtain ⟨x, ra, u, a1, a2, a3, a4, a5⟩ := Going.start_append codec hcodec std ss k3 bytes k2 b.compress _ hid
      simp only [a1, hid.stream, if_true, if_neg a2, hfill]
      refine ⟨_, rfl, ?_, ?_, hi.room, hi.small, by simp, ?_⟩
      · intro name hn
        exact hi.kept name (by rw [hc]; simp)
      · exact (fresh_compress mt s).trans hi.level
      · intro name ps h
        simp only [Option.some.injEq, Prod.mk.injEq] at h
        obtain ⟨rfl, rfl⟩ := h
        refine ⟨rfl, rfl, fresh_null mt s, by simp, k1, ss, u, hf, .inr k3, a3, ⟨a4.stream.symm, a4.ra.map.symm, a4.ra.list.symm, a4.ra.file.symm⟩, a5, ?_⟩
        have := hi.room _ _ hf
        simpa using this
    · have hb : bytes = [] := by
        have e : fileAfter codec std [⟨compress, []⟩] = .ok (some []) := rfl
        rw [e] at k2
        simpa using k2.symm
      subst hb
      obtain ⟨x, hx⟩ := initAppend_short codec (s.fresh mt).wrt.ra [] (by decide)
      have hfill : Filled [⟨compress, []⟩] = false := rfl
      simp only [hx, hfill, Bool.false_eq_true, if_false]
      refine ⟨_, rfl, ?_⟩
      have e : ({ s.fresh mt with wrt := { (s.fresh mt).wrt with ra := (s.fresh mt).wrt.ra }, disk := s.disk } : WriterUse) = s.fresh mt := by
        rw [← fresh_disk mt s]
      exact e ▸ same

theorem use_write (hcodec : Lossless codec) (hW : Writes codec std W) (hi : UseInv codec std mt W (k + 1) b s) (p : Put) (hp : p ∈ W) :
    ∃ s', s.write codec std mt p = ((b.step (.write p)).1, s') ∧ UseInv codec std mt W k (b.step (.write p)).2 s' := by
  have hroom : ∀ name ss, b.files name = some ss → (allPuts ss).length + k < 2 ^ 27 := fun name ss h => by have := hi.room name ss h; omega
  have hsmall : k < 2 ^ 27 := by have := hi.small; omega
  cases hc : b.current with
  | none =>
    have hid := hi.closed hc
    unfold WriterUse.write Books.step
    simp only [hid.stream, hc]
    exact ⟨_, rfl, hi.kept, hi.level, hroom, hsmall, hi.closed, fun name ps h => by rw [hc] at h; cases h⟩
  | some c =>
    obtain ⟨name, ps⟩ := c
    obtain ⟨o1, o2, o3, o4, o5, ss, u, u1, u2, u3, u4, u5, u6⟩ := hi.opened name ps hc
    obtain ⟨u', a1, a2, a3⟩ := Going.put hcodec u3 (fun q hq => hW.ok q (o4 q hq) _) p (hW.ok p hp _)
    obtain ⟨st, hst⟩ := Option.ne_none_iff_exists'.1 (by rw [← u4.stream]; exact u5 : s.wrt.stream ≠ none)
    obtain ⟨b1, b2⟩ := alike_call codec std b.compress p u s.wrt u4
    rw [a1] at b1 b2
    have hmt : (mt && s.null) = false := by
      cases mt with
      | false => rfl
      | true => simpa using o3 rfl
    unfold WriterUse.write Books.step
    simp only [hst, hc, o2, hmt, Bool.not_true, Bool.false_eq_true, if_false, hi.level, ← b1]
    refine ⟨_, rfl, ?_, rfl, hroom, hsmall, by simp, ?_⟩
    · intro n hn
      have hne : n ≠ name := fun e => hn (by simp [e])
      have := hi.kept n (by rw [hc]; simpa using fun e => hne e.symm)
      simpa only [setFile, o1, if_neg hne] using this
    · intro n qs h
      simp only [Option.some.injEq, Prod.mk.injEq] at h
      obtain ⟨rfl, rfl⟩ := h
      refine ⟨o1, rfl, o3, ?_, ?_, ss, u', u1, u2, a2, b2, a3, by simp only [List.length_append, List.length_singleton]; omega⟩
      · intro q hq
        rcases List.mem_append.1 hq with hq | hq
        · exact o4 q hq
        · rw [List.mem_singleton.1 hq]; exact hp
      · obtain ⟨st', hst'⟩ := Option.ne_none_iff_exists'.1 (by rw [← b2.stream]; exact a3 : (p.call codec std b.compress s.wrt).2.stream ≠ none)
        simp only [setFile, o1, if_true, hst', Option.map_some, Option.getD_some]

theorem use_close (hcodec : Lossless codec) (hW : Writes codec std W) (hi : UseInv codec std mt W k b s) (ho : mt = true → b.current ≠ none) :
    ∃ s', s.close mt = ((b.step .close).1, s') ∧ UseInv codec std mt W k (b.step .close).2 s' := by
  cases hc : b.current with
  | none =>
    have hid := hi.closed hc
    have hmt : mt = false := by
      cases mt with
      | false => rfl
      | true => exact absurd hc (ho rfl)
    subst hmt
    have hm : s.wrt.ra.map.map.isEmpty = true := by rw [hid.map]; rfl
    unfold WriterUse.close Books.step
    simp only [hid.stream, hc, Bool.false_and, Bool.false_eq_true, if_false, hm, if_true]
    exact ⟨_, rfl, hi.kept, hi.level, hi.room, hi.small, fun _ => ⟨rfl, rfl, rfl, rfl⟩, fun name ps h => by rw [hc] at h; cases h⟩
  | some c =>
    obtain ⟨name, ps⟩ := c
    obtain ⟨o1, o2, o3, o4, o5, ss, u, u1, u2, u3, u4, u5, u6⟩ := hi.opened name ps hc
    have hok : ∀ q ∈ ps, q.Ok codec std b.compress := fun q hq => hW.ok q (o4 q hq) _
    have hruns := fun p (hp : p ∈ ps) q (hq : q ∈ ps) => hW.runs p (o4 p hp) q (o4 q hq)
    obtain ⟨bytes, w', a1, a2, a3⟩ := Going.close hcodec u3 hok (by omega) (runsClose_of _ hruns) s.wrt u4
    obtain ⟨st, hst⟩ := Option.ne_none_iff_exists'.1 (by rw [← u4.stream]; exact u5 : s.wrt.stream ≠ none)
    have hmt : (mt && s.null) = false := by
      cases mt with
      | false => rfl
      | true => simpa using o3 rfl
    unfold WriterUse.close Books.step
    simp only [hst, hc, o2, hmt, Bool.not_true, Bool.false_and, Bool.false_eq_true, if_false, a2, u1, Option.getD_some]
    refine ⟨_, rfl, ?_, hi.level, ?_, hi.small, fun _ => a3, by simp⟩
    · intro n _
      by_cases hn : n = name
      · subst hn
        simp only [setFile, if_true, o1]
        refine ⟨bytes, rfl, a1, ?_⟩
        rcases u2 with rfl | u2
        · by_cases hps : ps = []
          · subst hps
            exact .inr ⟨_, rfl⟩
          · left
            refine ⟨?_, ⟨_, [], rfl, hps⟩, ?_⟩
            · intro x hx
              rw [List.nil_append, List.mem_singleton] at hx
              subst hx
              exact ⟨hok, hruns⟩
            · simp only [allPuts, List.nil_append, List.flatMap_cons, List.flatMap_nil, List.append_nil]
              omega
        · left
          refine ⟨?_, ?_, ?_⟩
          · intro x hx
            rcases List.mem_append.1 hx with hx | hx
            · exact u2.each x hx
            · rw [List.mem_singleton.1 hx]
              exact ⟨hok, hruns⟩
          · obtain ⟨x, rest, e, hx⟩ := u2.first
            exact ⟨x, rest ++ [⟨b.compress, ps⟩], by rw [e]; rfl, hx⟩
          · simp only [allPuts, List.flatMap_append, List.flatMap_cons, List.flatMap_nil, List.append_nil, List.length_append] at u6 ⊢
            omega
      · have := hi.kept n (by rw [hc]; simpa using fun e => hn e.symm)
        simpa only [setFile, o1, if_neg hn] using this
    · intro n ss' h
      simp only [setFile] at h
      split at h
      · cases h
        simp only [allPuts, List.flatMap_append, List.flatMap_cons, List.flatMap_nil, List.append_nil, List.length_append] at u6 ⊢
        omega
      · exact hi.room n ss' h

theorem use_run (hcodec : Lossless codec) (hW : Writes codec std W) (cs : List WCall) :
    ∀ (b : Books) (s : WriterUse), UseInv codec std mt W (writes cs).length b s → Orderly mt b cs → (∀ p ∈ writes cs, p ∈ W) →
      (s.run codec std mt cs).1 = (b.run cs).1 ∧ UseInv codec std mt W 0 (b.run cs).2 (s.run codec std mt cs).2 := by
  induction cs with
  | nil => intro b s hi _ _; exact ⟨rfl, hi⟩
  | cons c cs ih =>
    intro b s hi ho hw
    obtain ⟨o1, o2⟩ := ho
    have key : ∃ s', s.step codec std mt c = ((b.step c).1, s') ∧ UseInv codec std mt W (writes cs).length (b.step c).2 s' := by
      cases c with
      | create name =>
        simp only [WriterUse.step, Books.step]
        have hk := hi.kept (getSIOFileName name) (by rw [o1]; simp)
        cases hf : b.files (getSIOFileName name) with
        | none =>
          simp only [hf] at hk
          simp only [hk, Option.isSome_none, Bool.false_eq_true, if_false]
          exact use_openNew hi o1 _
        | some ss =>
          simp only [hf] at hk
          obtain ⟨bytes, k1, -⟩ := hk
          simp only [k1, Option.isSome_some, if_true]
          exact ⟨_, rfl, hi⟩
      | replace name => exact use_openNew hi o1 _
      | append name =>
        obtain ⟨s', h1, h2⟩ := use_openAppend hcodec hi o1 (getSIOFileName name)
        refine ⟨s', ?_, ?_⟩
        · simp only [WriterUse.step, h1, Books.step]
          cases b.files (getSIOFileName name) with
          | none => rfl
          | some ss => simp only; split <;> rfl
        · revert h2
          simp only [Books.step]
          cases b.files (getSIOFileName name) with
          | none => exact id
          | some ss => simp only; split <;> exact id
      | level c =>
        exact ⟨_, rfl, hi.kept, rfl, hi.room, hi.small, hi.closed, fun name ps h => by rw [show (b.step (.level c)).2.current = b.current from rfl, o1] at h; cases h⟩
      | write p => exact use_write hcodec hW hi p (hw p (by simp [writes]))
      | flush => exact ⟨_, rfl, hi⟩
      | close => exact use_close hcodec hW hi o1
    obtain ⟨s', h1, h2⟩ := key
    have hsub : ∀ p ∈ writes cs, p ∈ W := by
      intro p hp
      apply hw
      cases c <;> simp only [writes, List.mem_cons] <;> first | exact hp | exact .inr hp
    obtain ⟨r1, r2⟩ := ih _ _ h2 o2 hsub
    simp only [WriterUse.run, Books.run, h1]
    exact ⟨by rw [r1], r2⟩

/-- The first calls of a writer. -/
theorem use_start (files : Str → Option (List Session)) (disk : Str → Option (List Byte)) (hd : FilesKept codec std disk { files := files }) (cs : List WCall)
    (hn : (writes cs).length < 2 ^ 27) (hr : ∀ name ss, files name = some ss → (allPuts ss).length + (writes cs).length < 2 ^ 27) :
    UseInv codec std mt W (writes cs).length { files := files } { disk := disk } :=
  ⟨hd, rfl, hr, hn, fun _ => ⟨rfl, rfl, rfl, rfl⟩, fun _ _ h => by cases h⟩

/-- **C91**, as far as it holds. There are some files, each of them made by a writer that was closed, and a new writer (`SIO::SIOWriter`, or `MT::LCWriter` used by one thread). Any functions of the
writer are called in any order, any number of times, where no file is opened while another one is open (and `MT::LCWriter` is closed only if a file is open): files are created, replaced or
appended to, run headers and events are written, the writer is closed and used for other files or the same ones. Every call succeeds or throws an exception as it should, and each file
that is not open has exactly the bytes that a new writer would have written that was used for no other file, so that everything that was written to it, and only that, can be read from it. -/
theorem C91_uses_partial (mt : Bool) (codec : Codec) (hcodec : Lossless codec) (std : Std Pid) (files : Str → Option (List Session)) (disk : Str → Option (List Byte))
    (hd : FilesKept codec std disk { files := files }) (cs : List WCall) (ho : Orderly mt { files := files } cs)
    (hok : ∀ p ∈ writes cs, ∀ compress, p.Ok codec std compress)
    (hruns : ∀ p ∈ writes cs, ∀ q ∈ writes cs, -2 ^ 31 ≤ p.key.run.toInt - q.key.run.toInt ∧ p.key.run.toInt - q.key.run.toInt < 2 ^ 31)
    (hn : (writes cs).length < 2 ^ 27) (hr : ∀ name ss, files name = some ss → (allPuts ss).length + (writes cs).length < 2 ^ 27) :
    (WriterUse.run codec std mt { disk := disk } cs).1 = (Books.run { files := files } cs).1 ∧
      FilesKept codec std (WriterUse.run codec std mt { disk := disk } cs).2.disk (Books.run { files := files } cs).2 := by
  obtain ⟨h1, h2⟩ := use_run (mt := mt) hcodec ⟨hok, hruns⟩ cs _ _ (use_start files disk hd cs hn hr) ho (fun p hp => hp)
  exact ⟨h1, h2.kept⟩

/-! ## Opening a file while another one is open -/

theorem readAccess_map (m : RaMgr) (s : IStream) : (m.readAccess s).2.2.map = m.map := by
  have hany : (m.readAny s).2.2.map = m.map := by
    unfold RaMgr.readAny
    split <;> (try split) <;> rfl
  unfold RaMgr.readAccess
  generalize m.readAny s = x at hany
  obtain ⟨x1, x2, x3⟩ := x
  simp only at hany
  cases x1 with
  | error e => exact hany
  | ok o =>
    cases o with
    | none => exact hany
    | some p =>
      obtain ⟨info, data⟩ := p
      simp only
      split
      · exact hany
      · split
        · exact hany
        · exact hany

theorem readAccessAt_map (m : RaMgr) (s : IStream) (pos : Int) : (m.readAccessAt s pos).2.2.map = m.map := by
  unfold RaMgr.readAccessAt
  split
  · rfl
  · exact readAccess_map _ _

theorem add_ne (m : RaMgr) (k : RunEvent) (p : Nat) : (m.add k p).map.map ≠ [] := by
  unfold RaMgr.add RunEventMap.add
  have := omAssign_ne RunEvent.lt (RunEvent.ofLong k.toLong) (BitVec.ofNat 64 p) m.map.map
  simp only
  split
  · split <;> exact this
  · exact this

theorem recreateLoop_ne (codec : Codec) (fuel : Nat) (m : RaMgr) (s : IStream) (h : m.map.map ≠ []) : (RaMgr.recreateLoop codec fuel m s).2.2.map.map ≠ [] := by
  induction fuel generalizing m s with
  | zero => exact h
  | succ fuel ih =>
    unfold RaMgr.recreateLoop
    split
    · exact h
    · exact h
    · split
      · exact h
      · exact h
      · simp only
        split
        · exact h
        · split
          · exact h
          · split
            · split
              · exact h
              · exact ih _ _ (add_ne _ _ _)
            · split
              · split
                · exact h
                · exact ih _ _ (add_ne _ _ _)
              · exact ih _ _ h

theorem initAppend_ne (codec : Codec) (m : RaMgr) (s : IStream) (h : m.map.map ≠ []) : (m.initAppend codec s).2.2.map.map ≠ [] := by
  unfold RaMgr.initAppend
  have h1 := readAccessAt_map m s (-(randomAccessSize : Int))
  generalize m.readAccessAt s (-(randomAccessSize : Int)) = x at h1
  obtain ⟨x1, x2, x3⟩ := x
  simp only at h1
  cases x1 with
  | error e => simpa only [h1] using h
  | ok o =>
    cases o with
    | false =>
      simp only
      have h2 : (x3.recreateEventMap codec x2).2.2.map.map ≠ [] := by
        unfold RaMgr.recreateEventMap
        split
        · simpa only [h1] using h
        · rename_i s' _
          have := recreateLoop_ne codec (recordFuel s') x3 s' (by simpa only [h1] using h)
          generalize RaMgr.recreateLoop codec (recordFuel s') x3 s' = y at this
          obtain ⟨y1, y2, y3⟩ := y
          cases y1 with
          | error e => exact this
          | ok u => simp only; split <;> exact this
      generalize x3.recreateEventMap codec x2 = y at h2
      obtain ⟨y1, y2, y3⟩ := y
      cases y1 <;> exact h2
    | true =>
      simp only
      split
      · simpa only [h1] using h
      · rename_i f _
        have h3 := readAccessAt_map { x3 with file := some f, list := x3.list.dropLast } x2 f.nextLoc.toInt
        generalize RaMgr.readAccessAt { x3 with file := some f, list := x3.list.dropLast } x2 f.nextLoc.toInt = y at h3
        obtain ⟨y1, y2, y3⟩ := y
        simp only at h3
        cases y1 <;> simpa only [h3, h1] using h

/-- The writer cannot be used any more. -/
structure Stuck (s : WriterUse) : Prop where
  stream : s.wrt.stream ≠ none
  bad : s.good = false
  map : s.wrt.ra.map.map ≠ []

theorem stuck_step (codec : Codec) (std : Std Pid) (s : WriterUse) (h : Stuck s) (c : WCall) :
    Stuck (s.step codec std false c).2 ∧ (s.step codec std false c).2.disk = s.disk ∧
      ((s.step codec std false c).1 = .ok () → c = .flush ∨ ∃ l, c = .level l) := by
  obtain ⟨h1, h2, h3⟩ := h
  obtain ⟨st, hst⟩ := Option.ne_none_iff_exists'.1 h1
  have hf : s.fresh false = s := rfl
  have hnew : ∀ file, s.openNew file = (.error .notOpen, { s with good := false }) := by
    intro file
    unfold WriterUse.openNew
    rw [hst]
  cases c with
  | create name =>
    simp only [WriterUse.step, hf, hnew]
    split
    · exact ⟨⟨h1, h2, h3⟩, by trivial, fun h => by cases h⟩
    · exact ⟨⟨h1, rfl, h3⟩, by trivial, fun h => by cases h⟩
  | replace name =>
    simp only [WriterUse.step, hf, hnew]
    exact ⟨⟨h1, rfl, h3⟩, by trivial, fun h => by cases h⟩
  | append name =>
    simp only [WriterUse.step, hf, WriterUse.openAppend]
    cases s.disk (getSIOFileName name) with
    | none => exact ⟨⟨h1, h2, h3⟩, by trivial, fun h => by cases h⟩
    | some bytes =>
      simp only
      have hne := initAppend_ne codec s.wrt.ra { bytes := bytes } h3
      generalize s.wrt.ra.initAppend codec { bytes := bytes } = x at hne
      obtain ⟨x1, x2, x3⟩ := x
      cases x1 with
      | error e => exact ⟨⟨h1, h2, hne⟩, by trivial, fun h => by cases h⟩
      | ok o =>
        simp only [hst]
        exact ⟨⟨by simp, rfl, hne⟩, by trivial, fun h => by cases o <;> cases h⟩
  | level l => exact ⟨⟨h1, h2, h3⟩, by trivial, fun _ => .inr ⟨l, rfl⟩⟩
  | write p =>
    simp only [WriterUse.step, WriterUse.write, hst, h2, Bool.not_false, if_true]
    exact ⟨⟨h1, h2, h3⟩, by trivial, fun h => by cases h⟩
  | flush => exact ⟨⟨h1, h2, h3⟩, by trivial, fun _ => .inl rfl⟩
  | close =>
    have hm : s.wrt.ra.map.map.isEmpty = false := by simpa using h3
    simp only [WriterUse.step, WriterUse.close, hst, h2, hm, Bool.false_and, Bool.false_eq_true, if_false, Bool.not_false, Bool.and_self, if_true]
    exact ⟨⟨h1, h2, h3⟩, by trivial, fun h => by cases h⟩

theorem stuck_run (codec : Codec) (std : Std Pid) (cs : List WCall) (s : WriterUse) (h : Stuck s) :
    (s.run codec std false cs).2.disk = s.disk ∧ All2 (fun c r => r = .ok () → c = WCall.flush ∨ ∃ l, c = .level l) cs (s.run codec std false cs).1 := by
  induction cs generalizing s with
  | nil => exact ⟨rfl, All2.nil _⟩
  | cons c cs ih =>
    obtain ⟨h1, h2, h3⟩ := stuck_step codec std s h c
    obtain ⟨k1, k2⟩ := ih _ h1
    exact ⟨k1.trans h2, All2.cons h3 k2⟩

/-- Something was written to the open file. -/
theorem inUse_map (hcodec : Lossless codec) (hW : Writes codec std W) {name : Str} {ps : List Put} (h : InUse codec std mt W k b s name ps) (hne : ps ≠ []) :
    s.wrt.stream ≠ none ∧ s.wrt.ra.map.map ≠ [] := by
  obtain ⟨-, -, -, o4, -, ss, u, -, -, u3, u4, u5, -⟩ := h
  refine ⟨by rw [← u4.stream]; exact u5, ?_⟩
  obtain ⟨A, T, ra, last, t1, t2, h1, h2, h3⟩ := u3.ex
  obtain ⟨gs, g1, g2⟩ := over_putAll codec hcodec std b.compress ps (fun q hq => hW.ok q (o4 q hq) _) A T ra
  rw [h2] at g2
  simp only [Except.ok.injEq] at g2
  rw [← u4.ra.map, g2, addKeys_eq, h1]
  apply addAll_ne
  intro e
  have := congrArg List.length (keysFrom_fst codec std ps gs g1 A.length)
  have e' := congrArg List.length e
  simp only [List.length_map, List.length_nil] at this e'
  exact hne (List.eq_nil_of_length_eq_zero (by omega))

/-- **C91** fails when a file is opened while another one is open, to which something has been written with `SIO::SIOWriter`. This throws an exception as it should, but after that nothing can be done with
the writer: every call throws an exception (except `flush` and `setCompressionLevel`), so that nothing more can be written to the file that is open, it never gets the records for direct access, the
writer cannot be closed and opens no other file. -/
theorem C91_fails_stuck (codec : Codec) (hcodec : Lossless codec) (std : Std Pid) (files : Str → Option (List Session)) (disk : Str → Option (List Byte))
    (hd : FilesKept codec std disk { files := files }) (cs : List WCall) (ho : Orderly false { files := files } cs)
    (hok : ∀ p ∈ writes cs, ∀ compress, p.Ok codec std compress)
    (hruns : ∀ p ∈ writes cs, ∀ q ∈ writes cs, -2 ^ 31 ≤ p.key.run.toInt - q.key.run.toInt ∧ p.key.run.toInt - q.key.run.toInt < 2 ^ 31)
    (hn : (writes cs).length < 2 ^ 27) (hr : ∀ name ss, files name = some ss → (allPuts ss).length + (writes cs).length < 2 ^ 27)
    (name : Str) (ps : List Put) (hcur : (Books.run { files := files } cs).2.current = some (name, ps)) (hps : ps ≠ []) (other : Str) (later : List WCall) :
    let s := (WriterUse.run codec std false { disk := disk } cs).2
    let t := s.step codec std false (.replace other)
    t.1 = .error .notOpen ∧ (t.2.run codec std false later).2.disk = s.disk ∧
      All2 (fun c r => r = .ok () → c = WCall.flush ∨ ∃ l, c = .level l) later (t.2.run codec std false later).1 := by
  intro s t
  obtain ⟨-, h2⟩ := use_run (mt := false) hcodec ⟨hok, hruns⟩ cs _ _ (use_start files disk hd cs hn hr) ho (fun p hp => hp)
  obtain ⟨k1, k2⟩ := inUse_map hcodec ⟨hok, hruns⟩ (h2.opened name ps hcur) hps
  obtain ⟨st, hst⟩ := Option.ne_none_iff_exists'.1 k1
  have ht : t = (.error .notOpen, { s with good := false }) := by
    show s.openNew _ = _
    unfold WriterUse.openNew
    rw [hst]
  rw [ht]
  obtain ⟨l1, l2⟩ := stuck_run codec std later { s with good := false } ⟨k1, rfl, k2⟩
  exact ⟨rfl, l1, l2⟩

/-- **C91** fails in the same case for `MT::LCWriter` in another way: after the exception nothing more can be written to the file that is open, but the writer can be closed. This does not write the records for
direct access, so that the file is not as if it had been closed. -/
theorem C91_fails_no_records (codec : Codec) (hcodec : Lossless codec) (std : Std Pid) (files : Str → Option (List Session)) (disk : Str → Option (List Byte))
    (hd : FilesKept codec std disk { files := files }) (cs : List WCall) (ho : Orderly true { files := files } cs)
    (hok : ∀ p ∈ writes cs, ∀ compress, p.Ok codec std compress)
    (hruns : ∀ p ∈ writes cs, ∀ q ∈ writes cs, -2 ^ 31 ≤ p.key.run.toInt - q.key.run.toInt ∧ p.key.run.toInt - q.key.run.toInt < 2 ^ 31)
    (hn : (writes cs).length < 2 ^ 27) (hr : ∀ name ss, files name = some ss → (allPuts ss).length + (writes cs).length < 2 ^ 27)
    (name : Str) (ps : List Put) (hcur : (Books.run { files := files } cs).2.current = some (name, ps)) (hps : ps ≠ []) (other : Str) (p : Put) :
    let s := (WriterUse.run codec std true { disk := disk } cs).2
    let t := s.step codec std true (.replace other)
    t.1 = .error .notOpen ∧ t.2.step codec std true (.write p) = (.error .badState, t.2) ∧ (t.2.step codec std true .close).1 = .ok () ∧
      (t.2.step codec std true .close).2.disk name = s.disk name ∧ (s.step codec std true .close).1 = .ok () ∧
      (s.step codec std true .close).2.disk name ≠ s.disk name := by
  intro s t
  obtain ⟨-, h2⟩ := use_run (mt := true) hcodec ⟨hok, hruns⟩ cs _ _ (use_start files disk hd cs hn hr) ho (fun p hp => hp)
  have hin := h2.opened name ps hcur
  obtain ⟨o1, o2, o3, o4, o5, ss, u, u1, u2, u3, u4, u5, u6⟩ := hin
  obtain ⟨st, hst⟩ := Option.ne_none_iff_exists'.1 (by rw [← u4.stream]; exact u5 : s.wrt.stream ≠ none)
  have ht : t = (.error .notOpen, { s with wrt := ⟨some st, {}⟩, null := false, good := false }) := by
    show (s.fresh true).openNew _ = _
    unfold WriterUse.openNew
    rw [fresh_stream, hst]
    simp [WriterUse.fresh, hst]
  have hsd : s.disk name = some st.bytes := by
    rw [show s.disk name = s.wrt.stream.map (·.bytes) from o5, hst]; rfl
  have hname : s.name = name := o1
  have hokps : ∀ q ∈ ps, ∀ c, q.Ok codec std c := fun q hq => hok q (o4 q hq)
  obtain ⟨bytes, w', a1, a2, a3⟩ := Going.close hcodec u3 (fun q hq => hokps q hq _) (by omega)
    (runsClose_of _ fun p hp q hq => hruns p (o4 p hp) q (o4 q hq)) s.wrt u4
  have hlong := Going.longer hcodec u3 (fun q hq => hokps q hq _) (by omega) (runsClose_of _ fun p hp q hq => hruns p (o4 p hp) q (o4 q hq)) hps s.wrt u4 st hst w' bytes a2
  have hclose : s.step codec std true .close = (.ok (), { s with wrt := w', null := true, disk := setFile s.disk s.name bytes }) := by
    have hg : s.good = true := o2
    have hnul : s.null = false := o3 rfl
    simp only [WriterUse.step, WriterUse.close, hnul, Bool.and_false, Bool.false_eq_true, if_false, hst, hg, Bool.not_true, Bool.false_and, a2, Option.getD_some]
  rw [ht, hclose]
  refine ⟨rfl, rfl, rfl, ?_, rfl, ?_⟩
  · simp only [WriterUse.step, WriterUse.close, Bool.and_false, Bool.false_eq_true, if_false, Bool.not_false, Bool.true_and]
    have e : (({} : RaMgr).map.map.isEmpty) = true := rfl
    simp only [e, Bool.not_true, Bool.false_eq_true, if_false, Writer.close, RaMgr.writeRandomAccessRecords, if_true, Option.getD_some, setFile, hname]
    exact hsd.symm
  · simp only [setFile, hname, if_true, hsd]
    intro e
    have : bytes = st.bytes := by simpa using e
    rw [this] at hlong
    exact absurd hlong (Nat.lt_irrefl _)

/-- **C91** fails for `MT::LCWriter` if it is closed when no file is open: a null pointer is dereferenced, for a new writer and after every `close` that succeeds. -/
theorem C91_fails_closed_twice (codec : Codec) (std : Std Pid) (disk : Str → Option (List Byte)) :
    (WriterUse.step codec std true { disk := disk } .close).1 = .error .ub ∧
      ∀ s : WriterUse, (s.step codec std true .close).1 = .ok () → ((s.step codec std true .close).2.step codec std true .close).1 = .error .ub := by
  refine ⟨rfl, fun s h => ?_⟩
  have key : (s.step codec std true .close).2.null = true := by
    simp only [WriterUse.step, WriterUse.close, Bool.true_and] at h ⊢
    cases hn : s.null with
    | true => simp only [hn, if_true] at h; cases h
    | false =>
      simp only [hn, Bool.false_eq_true, if_false] at h ⊢
      cases hst : s.wrt.stream with
      | none =>
        simp only [hst] at h ⊢
        split at h
        · rename_i hm; rw [if_pos hm]
        · cases h
      | some st =>
        simp only [hst] at h ⊢
        split at h
        · cases h
        · rename_i hm
          rw [if_neg hm]
          cases hc : s.wrt.close with
          | error e => rw [hc] at h; cases h
          | ok x => rfl
  generalize (s.step codec std true .close).2 = s' at key
  simp only [WriterUse.step, WriterUse.close, key, Bool.and_self, if_true]

/-! ## Cases -/

/-- A file is created, closed, not created again, appended to; another one is created without compression and left open. -/
def useSample : List WCall :=
  [.write (.run (Props.runHeaderOf 3) []), .create (str "a"), .write (.run (Props.runHeaderOf 3) []), .write (.event { run := 3, evt := 9 } Props.tinyCols ([], [])), .close, .create (str "a.slcio"),
   .append (str "b"), .append (str "a"), .write (.event { run := 4, evt := 0 } [] ([], [])), .flush, .close, .level false, .replace (str "b"), .write (.run (Props.runHeaderOf 3) [])]

theorem useSample_orderly (mt : Bool) : Orderly mt { files := fun _ => none } useSample := by
  have : getSIOFileName (str "a") = str "a.slcio" := by decide +kernel
  have : getSIOFileName (str "a.slcio") = str "a.slcio" := by decide +kernel
  have : getSIOFileName (str "b") = str "b.slcio" := by decide +kernel
  have : (str "b.slcio" = str "a.slcio") = False := eq_false (by decide)
  simp [useSample, Orderly, Books.step, setFile, Filled, allPuts, *]

theorem useSample_ok : ∀ p ∈ writes useSample, ∀ compress, p.Ok idCodec ieee compress := by
  have h3 : RunHeaderOk (Props.runHeaderOf 3) := ⟨by decide, by decide, by decide, by decide, Props.sampleParams_ok⟩
  intro p hp compress
  simp only [useSample, writes, List.mem_cons, List.not_mem_nil, or_false] at hp
  rcases hp with rfl | rfl | rfl | rfl | rfl
  · exact ⟨h3, Props.jobOk_id _ _ _ _ (by decide +kernel) (by decide +kernel)⟩
  · exact ⟨h3, Props.jobOk_id _ _ _ _ (by decide +kernel) (by decide +kernel)⟩
  · exact ⟨Props.jobOk_id _ _ _ _ (by decide +kernel) (by decide +kernel), Props.jobOk_id _ _ _ _ (by decide +kernel) (by decide +kernel)⟩
  · exact ⟨Props.jobOk_id _ _ _ _ (by decide +kernel) (by decide +kernel), Props.jobOk_id _ _ _ _ (by decide +kernel) (by decide +kernel)⟩
  · exact ⟨h3, Props.jobOk_id _ _ _ _ (by decide +kernel) (by decide +kernel)⟩

/-- The hypotheses of `C91_uses_partial`, `C91_fails_stuck` and `C91_fails_no_records` are met by this history. -/
example : (WriterUse.run idCodec ieee false { disk := fun _ => none } useSample).1 =
    [.error .ioException, .ok (), .ok (), .ok (), .ok (), .error .ioException, .error .ioException, .ok (), .ok (), .ok (), .ok (), .ok (), .ok (), .ok ()] :=
  ((C91_uses_partial false idCodec idCodec_lossless ieee (fun _ => none) (fun _ => none) (fun _ _ => rfl) useSample (useSample_orderly false) useSample_ok (by decide +kernel) (by decide)
    (fun _ _ h => nomatch h)).1).trans (by decide +kernel)

example : ((WriterUse.run idCodec ieee false { disk := fun _ => none } useSample).2.step idCodec ieee false (.replace (str "c"))).1 = .error .notOpen :=
  (C91_fails_stuck idCodec idCodec_lossless ieee (fun _ => none) (fun _ => none) (fun _ _ => rfl) useSample (useSample_orderly false) useSample_ok (by decide +kernel) (by decide)
    (fun _ _ h => nomatch h) (str "b.slcio") [.run (Props.runHeaderOf 3) []] rfl (by simp) (str "c") []).1

example : let s := (WriterUse.run idCodec ieee true { disk := fun _ => none } useSample).2
    (s.step idCodec ieee true .close).2.disk (str "b.slcio") ≠ s.disk (str "b.slcio") :=
  (C91_fails_no_records idCodec idCodec_lossless ieee (fun _ => none) (fun _ => none) (fun _ _ => rfl) useSample (useSample_orderly true) useSample_ok (by decide +kernel) (by decide)
    (fun _ _ h => nomatch h) (str "b.slcio") [.run (Props.runHeaderOf 3) []] rfl (by simp) (str "c") (.run (Props.runHeaderOf 3) [])).2.2.2.2.2

end Props
