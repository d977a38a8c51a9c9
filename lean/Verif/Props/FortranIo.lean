import Verif.Util.FortranIo
import Verif.Props.FullDisk
import Verif.Props.Sessions
/-
C116: files in Fortran programs.
-/
namespace Props
open Sio Spec Lcio Fort

/-! ## Writing -/

theorem lcwrtwrites_putAll (codec : Codec) (std : Std Pid) (compress : Bool) (ps : List Put) : ∀ w : LimWriter,
    lcwrtwrites codec std compress w ps = ((w.putAll codec std compress ps).1.map catchAll, (w.putAll codec std compress ps).2) := by
  induction ps with
  | nil => intro w; rfl
  | cons p ps ih =>
    intro w
    simp only [lcwrtwrites, LimWriter.putAll, lcwrtwrite, ih, List.map_cons]

theorem writeFile_session (codec : Codec) (std : Std Pid) (limit : Nat) (ra : RaMgr) (file : Option (List Byte)) (s : Session) (outs : List (Except Err Unit)) (closed : Except Err Unit) (lw : LimWriter)
    (f : Option (List Byte)) (h : sessionOnDisk codec std limit ra file s = .ok (outs, closed, lw, f)) :
    writeFile codec std limit ra file s = { opened := .returns successCode, written := outs.map catchAll, closed := catchAll closed, file := f } := by
  unfold sessionOnDisk at h
  unfold writeFile lcwrtopen
  cases file with
  | none =>
    have hx : ({ ra := ra } : LimWriter).openNew limit = (.ok (), { stream := some { s := { bytes := [] }, limit := limit }, ra := ra }) := rfl
    rw [hx] at h ⊢
    simp only at h
    injection h with h
    simp only [Prod.mk.injEq] at h
    obtain ⟨h1, h2, h3, h4⟩ := h
    simp only [lcwrtwrites_putAll, lcwrtclose, h1, h2, h4]
    rfl
  | some bytes =>
    simp only at h ⊢
    cases ho : LimWriter.openAppend codec limit ra bytes with
    | error e => rw [ho] at h; cases h
    | ok w =>
      rw [ho] at h
      simp only at h ⊢
      simp only [Except.ok.injEq, Prod.mk.injEq] at h
      obtain ⟨h1, h2, h3, h4⟩ := h
      simp only [lcwrtwrites_putAll, lcwrtclose, h1, h2, h4]
      rfl

/-! ## Reading -/

theorem reads_ok (cfg : RConfig) (gs : List Get) : ∀ (r : Reader) (ds : List (Option Delivery)), gets cfg gs r = .ok ds → lcrdrreads cfg gs r = ds.map .returns := by
  induction gs with
  | nil => intro r ds h; injection h with h; subst h; rfl
  | cons g gs ih =>
    intro r ds h
    simp only [gets] at h
    simp only [lcrdrreads, lcrdrread]
    cases hc : g.call cfg r with
    | mk x r' =>
    rw [hc] at h
    cases x with
    | error e => cases h
    | ok d =>
      cases d with
      | none => simp only at h; injection h with h; subst h; rfl
      | some d =>
        simp only at h
        cases hg : gets cfg gs r' with
        | error e => rw [hg] at h; cases h
        | ok ds' =>
          rw [hg] at h
          simp only at h
          injection h with h
          subst h
          simp only [catchNone, List.map_cons]
          rw [ih r' ds' hg]

theorem reads_error (cfg : RConfig) (gs : List Get) : ∀ (r : Reader) (e : Err), gets cfg gs r = .error e →
    ∃ ds : List (Option Delivery), none ∉ ds ∧ gets cfg (gs.take ds.length) r = .ok ds ∧ gets cfg (gs.take (ds.length + 1)) r = .error e ∧
      lcrdrreads cfg gs r = ds.map .returns ++ [catchNone (.error e)] := by
  induction gs with
  | nil => intro r e h; cases h
  | cons g gs ih =>
    intro r e h
    simp only [gets] at h
    simp only [lcrdrreads, lcrdrread]
    cases hc : g.call cfg r with
    | mk x r' =>
    rw [hc] at h
    cases x with
    | error e' =>
      simp only at h
      injection h with h
      subst h
      refine ⟨[], by simp, rfl, ?_, ?_⟩
      · simp only [List.length_nil, Nat.zero_add, List.take_succ_cons, gets, hc]
      · simp only [catchNone, List.map_nil, List.nil_append]
        cases isException e' <;> rfl
    | ok d =>
      cases d with
      | none => cases h
      | some d =>
        simp only at h
        cases hg : gets cfg gs r' with
        | ok ds' => rw [hg] at h; cases h
        | error e' =>
          rw [hg] at h
          simp only at h
          injection h with h
          subst h
          obtain ⟨ds, d1, d2, d3, d4⟩ := ih r' e' hg
          refine ⟨some d :: ds, by simp [d1], ?_, ?_, ?_⟩
          · simp only [List.length_cons, List.take_succ_cons, gets, hc, d2]
          · simp only [List.length_cons, List.take_succ_cons, gets, hc, d3]
          · simp only [catchNone, List.map_cons, List.cons_append]
            rw [d4]
            rfl

theorem serve_take (cfg : RConfig) (gs : List Get) : ∀ (its : List (Str × Put)) (n : Nat), serve cfg (gs.take n) its = (serve cfg gs its).take n := by
  induction gs with
  | nil => intro its n; simp [serve]
  | cons g gs ih =>
    intro its n
    cases n with
    | zero => simp [serve]
    | succ n =>
      simp only [List.take_succ_cons, serve]
      cases its.dropWhile fun x => !g.wants x.2 with
      | nil => simp
      | cons x rest => simp only [List.take_succ_cons, ih]

theorem serve_last (cfg : RConfig) (gs : List Get) : ∀ (its : List (Str × Put)), (∀ x ∈ its, delivery cfg x.1 x.2 ≠ none) → ∀ n, (serve cfg gs its)[n]? = some none → (serve cfg gs its).length = n + 1 := by
  induction gs with
  | nil => intro its _ n h; simp [serve] at h
  | cons g gs ih =>
    intro its hd n h
    simp only [serve] at h ⊢
    have hsub : ∀ x ∈ its.dropWhile (fun x => !g.wants x.2), delivery cfg x.1 x.2 ≠ none := fun x hx => hd x ((List.dropWhile_sublist _).subset hx)
    cases hw : its.dropWhile fun x => !g.wants x.2 with
    | nil =>
      rw [hw] at h
      cases n with
      | zero => rfl
      | succ n => simp at h
    | cons x rest =>
      rw [hw] at h hsub
      cases n with
      | zero =>
        simp only [List.getElem?_cons_zero, Option.some.injEq] at h
        exact absurd h (hsub x (by simp))
      | succ n =>
        simp only [List.getElem?_cons_succ] at h
        simp only [List.length_cons]
        rw [ih rest (fun y hy => hsub y (List.mem_cons_of_mem _ hy)) n h]

/-- Reading a file that may be cut off: what the program sees. -/
theorem reads_cut (cfg : RConfig) (r : Reader) (its : List (Str × Put)) (hd : ∀ x ∈ its, delivery cfg x.1 x.2 ≠ none)
    (h : ∀ gs, gets cfg gs r = .ok (serve cfg gs its) ∨ (none ∈ serve cfg gs its ∧ ∃ e, gets cfg gs r = .error e ∧ (e = .noMarker ∨ e = .badState ∨ e = .ioFailure))) (gs : List Get) :
    lcrdrreads cfg gs r = (serve cfg gs its).map .returns ∨ ∃ front, serve cfg gs its = front ++ [none] ∧ lcrdrreads cfg gs r = front.map .returns ++ [.terminated] := by
  rcases h gs with h1 | ⟨-, e, he, hk⟩
  · exact .inl (reads_ok cfg gs r _ h1)
  · obtain ⟨ds, d1, d2, d3, d4⟩ := reads_error cfg gs r e he
    refine .inr ⟨ds, ?_, ?_⟩
    · have e1 : ds = (serve cfg gs its).take ds.length := by
        rcases h (gs.take ds.length) with h2 | ⟨-, e', he', -⟩
        · rw [d2] at h2
          injection h2 with h2
          rw [serve_take] at h2
          exact h2
        · rw [d2] at he'; cases he'
      have e2 : none ∈ (serve cfg gs its).take (ds.length + 1) := by
        rcases h (gs.take (ds.length + 1)) with h2 | ⟨h2, -⟩
        · rw [d3] at h2; cases h2
        · rw [serve_take] at h2; exact h2
      rw [List.take_add_one, ← e1, List.mem_append] at e2
      have e3 : (serve cfg gs its)[ds.length]? = some none := by
        rcases e2 with e2 | e2
        · exact absurd e2 d1
        · cases hx : (serve cfg gs its)[ds.length]? with
          | none => rw [hx] at e2; cases e2
          | some y => rw [hx] at e2; simp at e2; rw [← e2]
      have e4 := serve_last cfg gs its hd _ e3
      have e5 : (serve cfg gs its).take (ds.length + 1) = ds ++ [none] := by
        rw [List.take_add_one, ← e1, e3]
        rfl
      rw [← e5, ← e4, List.take_length]
    · rw [d4]
      rcases hk with rfl | rfl | rfl <;> rfl

/-! ## C116 -/

/-- **C116**, writing: a Fortran program learns from what the functions return whether everything is in the file. There were some sessions with a file (none if it does not exist), and the program opens it, writes run headers and events with
`lcwrtwriterunheader` and `lcwrtwriteevent`, and closes it, on a disk where the file cannot become longer than `limit`. No call ends the program. If everything fits, all the calls return `LCIO_SUCCESS`. If it does not, the first `k` calls return
`LCIO_SUCCESS`, all that come after them `LCIO_ERROR`, and `lcwrtclose` returns `LCIO_ERROR` if anything was written. Then a Fortran program that reads the file gets everything of the earlier sessions and at least the first `k` things of this one, `m` things
together, in order and as they were written; when there is nothing more, the function returns 0 or the program is ended. -/
theorem C116_writing_partial (cfg : RConfig) (hcodec : Lossless cfg.codec) (ss : List Session) (s : Session) (hs : SessionsOk cfg.codec cfg.std (ss ++ [s])) (hne : s.puts ≠ [])
    (hl : Loadable cfg (allPuts (ss ++ [s]))) (name : Str) :
    ∃ w old new, runSessions cfg.codec cfg.std {} none ss = .ok (w, old) ∧ fileAfter cfg.codec cfg.std (ss ++ [s]) = .ok (some new) ∧
      ∀ limit, (old.getD []).length ≤ limit → ∃ f, writeFile cfg.codec cfg.std limit w.ra old s = f ∧
        f.opened = .returns successCode ∧ f.written.length = s.puts.length ∧ f.file = some (new.take limit) ∧
        (new.length ≤ limit → (∀ r ∈ f.written, r = .returns successCode) ∧ f.closed = .returns successCode) ∧
        (limit < new.length → ∃ k ≤ s.puts.length,
          (∀ i, i < k → f.written[i]? = some (.returns successCode)) ∧ (∀ i, k ≤ i → i < s.puts.length → f.written[i]? = some (.returns errorCode)) ∧
          (0 < k → f.closed = .returns errorCode) ∧
          ∃ m, (allPuts ss).length + k ≤ m ∧ m ≤ (allPuts (ss ++ [s])).length ∧ ∃ r, Reader.openFiles cfg false [(name, new.take limit)] = (.ok (), r) ∧
            ∀ gs, lcrdrreads cfg gs r = (serve cfg gs (((allPuts (ss ++ [s])).take m).map fun p => (name, p))).map .returns ∨
              ∃ front, serve cfg gs (((allPuts (ss ++ [s])).take m).map fun p => (name, p)) = front ++ [none] ∧ lcrdrreads cfg gs r = front.map .returns ++ [.terminated]) := by
  obtain ⟨w, old, new, h1, h2, h3⟩ := C112_full_disk cfg hcodec ss s hs hne hl name
  refine ⟨w, old, new, h1, h2, fun limit hlim => ?_⟩
  obtain ⟨outs, closed, lw, a1, a2, a3, a4⟩ := h3 limit hlim
  refine ⟨_, rfl, ?_⟩
  rw [writeFile_session _ _ _ _ _ _ _ _ _ _ a1]
  refine ⟨rfl, by simp [a2], rfl, fun hle => ?_, fun hlt => ?_⟩
  · obtain ⟨b1, b2⟩ := a3 hle
    refine ⟨fun r hr => ?_, by simp only [b2]; rfl⟩
    obtain ⟨x, hx, rfl⟩ := List.mem_map.1 hr
    rw [b1 x hx]; rfl
  · obtain ⟨k, k1, k2, k3, k4, k5, m, m1, m2, r, m3, m4⟩ := a4 hlt
    refine ⟨k, k1, fun i hi => ?_, fun i hi hn => ?_, fun hk => ?_, m, m1, m2, r, m3, reads_cut cfg r _ ?_ m4⟩
    · simp only [List.getElem?_map, k2 i hi]; rfl
    · simp only [List.getElem?_map]
      by_cases he : i = k
      · subst he; rw [k3 hn]; rfl
      · rw [k4 i (by omega) hn]; rfl
    · rcases (k5 hk).1 with h | h <;> simp only [h] <;> rfl
    · intro x hx
      obtain ⟨p, hp, rfl⟩ := List.mem_map.1 hx
      exact hl p (List.mem_of_mem_take hp) name

/-- **C116**, reading: for a file that was closed, `lcrdrreadnextevent` and `lcrdrreadnextrunheader` called in any order return what was written, each the next thing of its kind, then 0. -/
theorem C116_reading (cfg : RConfig) (hcodec : Lossless cfg.codec) (ss : List Session) (hs : SessionsOk cfg.codec cfg.std ss) (hl : Loadable cfg (allPuts ss)) (name : Str) (gs : List Get) :
    ∃ bytes r, fileAfter cfg.codec cfg.std ss = .ok (some bytes) ∧ Reader.openFiles cfg false [(name, bytes)] = (.ok (), r) ∧
      lcrdrreads cfg gs r = (serve cfg gs ((allPuts ss).map fun p => (name, p))).map .returns := by
  obtain ⟨bytes, r, h1, h2, h3, -⟩ := C31_in_order cfg hcodec ss hs hl name gs
  exact ⟨bytes, r, h1, h2, reads_ok cfg gs r _ h3⟩

/-- **C116** fails for programs that ask once more after 0 has been returned, for every file: the program is ended. -/
theorem C116_fails_after_end (cfg : RConfig) (hcodec : Lossless cfg.codec) (ss : List Session) (hs : SessionsOk cfg.codec cfg.std ss) (hl : Loadable cfg (allPuts ss)) (name : Str) (gs : List Get)
    (hend : none ∈ serve cfg gs ((allPuts ss).map fun p => (name, p))) (g : Get) :
    ∃ bytes r, fileAfter cfg.codec cfg.std ss = .ok (some bytes) ∧ Reader.openFiles cfg false [(name, bytes)] = (.ok (), r) ∧
      lcrdrreads cfg gs r = (serve cfg gs ((allPuts ss).map fun p => (name, p))).map .returns ∧ (lcrdrread cfg (afterGets cfg gs r) g).1 = .terminated := by
  obtain ⟨bytes, r, h1, h2, h3, h4⟩ := C31_in_order cfg hcodec ss hs hl name gs
  refine ⟨bytes, r, h1, h2, reads_ok cfg gs r _ h3, ?_⟩
  unfold lcrdrread
  simp only [h4 hend g]
  rfl

/-- **C116** fails for `lcreadnextrunheader`, for every file: after the last run header it does not return 0, but the behaviour is undefined. -/
theorem C116_fails_last_run_header (cfg : RConfig) (hcodec : Lossless cfg.codec) (ss : List Session) (hs : SessionsOk cfg.codec cfg.std ss) (hl : Loadable cfg (allPuts ss)) (name : Str)
    (detname description sdnames : List Byte) (nch : Nat) :
    ∃ bytes r, fileAfter cfg.codec cfg.std ss = .ok (some bytes) ∧ Reader.openFiles cfg false [(name, bytes)] = (.ok (), r) ∧
      ∀ gs, none ∉ serve cfg gs ((allPuts ss).map fun p => (name, p)) → (remaining gs ((allPuts ss).map fun p => (name, p))).all (fun x => x.2.isEvent) = true →
        (lcreadnextrunheader cfg (afterGets cfg gs r) detname description sdnames nch).1 = .undefined := by
  obtain ⟨bytes, r, h1, h2, -, -⟩ := C31_in_order cfg hcodec ss hs hl name []
  refine ⟨bytes, r, h1, h2, fun gs hno hall => ?_⟩
  obtain ⟨bytes', r', g1, g2, g3, -⟩ := C31_in_order cfg hcodec ss hs hl name (gs ++ [.run])
  rw [h1] at g1
  injection g1 with g1
  injection g1 with g1
  subst g1
  rw [h2] at g2
  injection g2 with g2 g4
  subst g4
  have key : ∀ (gs : List Get) (r : Reader) (its : List (Str × Put)), none ∉ serve cfg gs its → (remaining gs its).all (fun x => x.2.isEvent) = true →
      gets cfg (gs ++ [.run]) r = .ok (serve cfg (gs ++ [.run]) its) → (Get.call cfg (afterGets cfg gs r) .run).1 = .ok none := by
    intro gs
    induction gs with
    | nil =>
      intro r its _ hall hg
      simp only [remaining] at hall
      have hd : its.dropWhile (fun x => !Get.wants .run x.2) = [] := by
        clear hg
        induction its with
        | nil => rfl
        | cons x its ih =>
          simp only [List.all_cons, Bool.and_eq_true] at hall
          rw [List.dropWhile_cons, if_pos (by simp only [Get.wants, hall.1]; rfl)]
          exact ih (by simp [serve]) hall.2
      simp only [List.nil_append, serve, hd, gets] at hg
      simp only [afterGets]
      cases hc : Get.call cfg r .run with
      | mk x r' =>
      rw [hc] at hg
      cases x with
      | error e => cases hg
      | ok d =>
        cases d with
        | none => rfl
        | some d => simp at hg
    | cons g gs ih =>
      intro r its hno hall hg
      simp only [List.cons_append, serve, gets] at hg hno
      simp only [remaining] at hall
      cases hw : its.dropWhile fun x => !g.wants x.2 with
      | nil => rw [hw] at hno; simp at hno
      | cons x rest =>
        rw [hw] at hg hno hall
        simp only [List.mem_cons, not_or] at hno
        simp only [afterGets]
        cases hc : g.call cfg r with
        | mk y r' =>
        rw [hc] at hg
        cases y with
        | error e => cases hg
        | ok d =>
          cases d with
          | none =>
            simp only [Except.ok.injEq, List.cons.injEq] at hg
            exact absurd hg.1 hno.1
          | some d =>
            simp only at hg ⊢
            apply ih r' rest hno.2 hall
            cases hx : gets cfg (gs ++ [.run]) r' with
            | error e => rw [hx] at hg; cases hg
            | ok ds =>
              rw [hx] at hg
              simp only [Except.ok.injEq, List.cons.injEq] at hg
              rw [hg.2]
  have hk := key gs r _ hno hall g3
  unfold lcreadnextrunheader
  simp only [Get.call] at hk
  cases hr : (afterGets cfg gs r).readNextRunHeader cfg with
  | mk x r' =>
  rw [hr] at hk
  cases x with
  | error e => cases hk
  | ok h =>
    cases h with
    | some h => simp at hk
    | none => rfl

/-! ## Cases -/

/-- What a call ended with, with the number of the run or event. -/
def endsWith : Ending (Option Delivery) → Ending (Option Int)
  | .returns (some (.run h)) => .returns (some h.run.toInt)
  | .returns (some (.event e)) => .returns (some e.1.evt.toInt)
  | .returns none => .returns none
  | .terminated => .terminated
  | .undefined => .undefined

/-- What a Fortran program gets from a file. -/
def fortranReads (gs : List Get) (bytes : List Byte) : List (Ending (Option Int)) := (lcrdrreads sampleCfg gs (Reader.openFiles sampleCfg false [(str "f", bytes)]).2).map endsWith

/-- **C116** fails for files that were cut off in the middle of a record: `lcrdrreadnextrunheader` returns the first run header, then the program is ended; it cannot see that there is nothing more. The file is the one that was left by a program
that filled the disk (see the next case), 130 of 668 bytes. -/
theorem C116_fails_cut_file :
    fortranReads [.run, .run, .run, .run] (contentAfter [diskSession]) = [.returns (some 1), .returns (some 2), .returns (some 3), .returns none] ∧
    fortranReads [.run, .run, .run, .run] ((contentAfter [diskSession]).take 130) = [.returns (some 1), .terminated] := by
  decide +kernel

/-- What a Fortran program sees that writes three run headers: enough room, room for all but the index, room for the first one. -/
example : (writeFile idCodec ieee 2000 {} none diskSession).written = [.returns 1, .returns 1, .returns 1] ∧ (writeFile idCodec ieee 2000 {} none diskSession).closed = .returns 1 ∧
    (writeFile idCodec ieee 400 {} none diskSession).written = [.returns 1, .returns 1, .returns 1] ∧ (writeFile idCodec ieee 400 {} none diskSession).closed = .returns 0 ∧
    (writeFile idCodec ieee 130 {} none diskSession).written = [.returns 1, .returns 0, .returns 0] ∧ (writeFile idCodec ieee 130 {} none diskSession).closed = .returns 0 ∧
    (writeFile idCodec ieee 130 {} none diskSession).file = some ((contentAfter [diskSession]).take 130) := by
  decide +kernel

/-- **C116** fails for `lcwriterunheader`: it only catches the exceptions of LCIO and not those of the library below, so that a full disk ends the program. With the same run header `lcwrtwriterunheader` returns `LCIO_ERROR`. -/
theorem C116_fails_write_run_header (codec : Codec) (std : Std Pid) (compress : Bool) (buf : List Byte) (w : LimWriter) (irun : W32) (detname description : Str) (sdnames : List Byte) (nsubd : Int) (nch : Nat) (h : RunHeader)
    (hh : Fort.writeRunHeader irun detname description sdnames nsubd nch = .ok h) (e : Err) (he : (w.writeRunHeader codec compress buf h).1 = .error e) (hd : e = .ioFailure ∨ e = .badState) :
    (lcwriterunheader codec compress buf w irun detname description sdnames nsubd nch).1 = .terminated ∧ (lcwrtwrite codec std compress w (.run h buf)).1 = .returns errorCode := by
  unfold lcwriterunheader lcwrtwrite
  simp only [hh, LimWriter.put]
  rw [he]
  rcases hd with rfl | rfl <;> exact ⟨rfl, rfl⟩

/-- The case happens on a disk with room for 20 bytes. -/
example : (lcwriterunheader idCodec false [] (({} : LimWriter).openNew 20).2 5 (str "D") (str "x") (str "T\x00") 1 1).1 = .terminated ∧
    (lcwriterunheader idCodec false [] (({} : LimWriter).openNew 2000).2 5 (str "D") (str "x") (str "T\x00") 1 1).1 = .returns 1 := by
  decide +kernel

/-- The hypotheses of `C116_writing_partial` are met by the sample sessions. -/
example : ∃ w old new, runSessions sampleCfg.codec sampleCfg.std {} none (sampleSessions.take 2) = .ok (w, old) ∧ fileAfter sampleCfg.codec sampleCfg.std sampleSessions = .ok (some new) ∧
    ∀ limit, (old.getD []).length ≤ limit → (writeFile sampleCfg.codec sampleCfg.std limit w.ra old (sampleSessions.getLast (by simp [sampleSessions]))).file = some (new.take limit) := by
  obtain ⟨w, old, new, h1, h2, h3⟩ := C116_writing_partial sampleCfg idCodec_lossless (sampleSessions.take 2) (sampleSessions.getLast (by simp [sampleSessions]))
    sampleSessions_ok (by simp [sampleSessions]) sampleSessions_loadable (str "f")
  refine ⟨w, old, new, h1, h2, fun limit hl => ?_⟩
  obtain ⟨f, h4, -, -, h5, -⟩ := h3 limit hl
  rw [h4, h5]

/-- Those of `C116_fails_after_end` and `C116_fails_last_run_header` as well: there are run headers in the sample sessions, and at some point there are no more. -/
example : ∃ bytes r, fileAfter sampleCfg.codec sampleCfg.std sampleSessions = .ok (some bytes) ∧ Reader.openFiles sampleCfg false [(str "f", bytes)] = (.ok (), r) ∧
    ∀ gs, none ∉ serve sampleCfg gs ((allPuts sampleSessions).map fun p => (str "f", p)) → (remaining gs ((allPuts sampleSessions).map fun p => (str "f", p))).all (fun x => x.2.isEvent) = true →
      (lcreadnextrunheader sampleCfg (afterGets sampleCfg gs r) (zeros 20) (zeros 20) (zeros 20) 4).1 = .undefined :=
  C116_fails_last_run_header sampleCfg idCodec_lossless sampleSessions sampleSessions_ok sampleSessions_loadable (str "f") (zeros 20) (zeros 20) (zeros 20) 4

/-- The number of the run. -/
def runSeen : Ending (Option (W32 × List Byte × List Byte × List Byte × Int)) → Ending (Option Int)
  | .returns (some x) => .returns (some x.1.toInt)
  | .returns none => .returns none
  | .terminated => .terminated
  | .undefined => .undefined

/-- One run header: it is read, then there is no more. -/
example :
    let r := (Reader.openFiles sampleCfg false [(str "f", contentAfter [crashOld])]).2
    let first := lcreadnextrunheader sampleCfg r (zeros 20) (zeros 20) (zeros 20) 4
    runSeen first.1 = .returns (some 1) ∧ runSeen (lcreadnextrunheader sampleCfg first.2 (zeros 20) (zeros 20) (zeros 20) 4).1 = .undefined := by
  decide +kernel

end Props
