import Verif.Util.MergeDisk
import Verif.Spec.MergeDisk
import Verif.Props.Merge
import Verif.Props.FullDisk
/-
C121: merging files on a disk that becomes full.
-/
namespace Props
open Sio Spec Lcio Util

theorem putsUntil_ok (codec : Codec) (std : Std Pid) (compress : Bool) (ps : List Put) : ∀ w : LimWriter,
    (∀ r ∈ (w.putAll codec std compress ps).1, r = .ok ()) → putsUntil codec std compress w ps = (.ok (), (w.putAll codec std compress ps).2) := by
  induction ps with
  | nil => intro w _; rfl
  | cons p ps ih =>
    intro w h
    simp only [LimWriter.putAll, List.mem_cons, forall_eq_or_imp] at h
    simp only [LimWriter.putAll, putsUntil]
    cases hp : w.put codec std compress p with
    | mk r w' =>
      rw [hp] at h
      obtain ⟨h1, h2⟩ := h
      simp only at h1
      subst h1
      exact ih w' h2

theorem putAll_length (codec : Codec) (std : Std Pid) (compress : Bool) (ps : List Put) : ∀ w : LimWriter, (w.putAll codec std compress ps).1.length = ps.length := by
  induction ps with
  | nil => intro w; rfl
  | cons p ps ih => intro w; simp [LimWriter.putAll, ih]

theorem putAll_take (codec : Codec) (std : Std Pid) (compress : Bool) (ps : List Put) : ∀ (w : LimWriter) (k : Nat),
    (w.putAll codec std compress (ps.take k)).1 = (w.putAll codec std compress ps).1.take k := by
  induction ps with
  | nil => intro w k; simp [LimWriter.putAll]
  | cons p ps ih =>
    intro w k
    cases k with
    | zero => rfl
    | succ k => simp only [List.take_succ_cons, LimWriter.putAll, ih]

theorem putsUntil_error (codec : Codec) (std : Std Pid) (compress : Bool) (e : Err) (ps : List Put) : ∀ (w : LimWriter) (k : Nat),
    (∀ i, i < k → (w.putAll codec std compress ps).1[i]? = some (.ok ())) → (w.putAll codec std compress ps).1[k]? = some (.error e) →
    putsUntil codec std compress w ps = (.error e, (w.putAll codec std compress (ps.take (k + 1))).2) := by
  induction ps with
  | nil => intro w k _ h; simp [LimWriter.putAll] at h
  | cons p ps ih =>
    intro w k h1 h2
    simp only [List.take_succ_cons, LimWriter.putAll, putsUntil]
    cases hp : w.put codec std compress p with
    | mk r w' =>
      cases k with
      | zero =>
        simp only [LimWriter.putAll, hp, List.getElem?_cons_zero, Option.some.injEq] at h2
        subst h2
        rfl
      | succ k =>
        have h0 := h1 0 (by omega)
        simp only [LimWriter.putAll, hp, List.getElem?_cons_zero, Option.some.injEq] at h0
        subst h0
        simp only
        refine ih w' k (fun i hi => ?_) ?_
        · have := h1 (i + 1) (by omega)
          simpa only [LimWriter.putAll, hp, List.getElem?_cons_succ] using this
        · simpa only [LimWriter.putAll, hp, List.getElem?_cons_succ] using h2

/-- The session that makes a new file with a new writer. -/
theorem new_session (codec : Codec) (std : Std Pid) (room : Nat) (s : Session) :
    ∃ w, ({} : LimWriter).openNew room = (.ok (), w) ∧ sessionOnDisk codec std room {} none s =
      .ok ((w.putAll codec std s.compress s.puts).1, (w.putAll codec std s.compress s.puts).2.close.1, (w.putAll codec std s.compress s.puts).2.close.2.1, (w.putAll codec std s.compress s.puts).2.close.2.2) :=
  ⟨_, rfl, rfl⟩

theorem written_on_disk (cfg : RConfig) (hcodec : Lossless cfg.codec) (s : Session) (hs : SessionsOk cfg.codec cfg.std [s]) (hl : Loadable cfg s.puts) (name : Str)
    (ds : List Delivery) (hd : All2 (fun q d => delivery cfg name q = some d) s.puts ds) (room : Nat) (w : LimWriter) (hw : ({} : LimWriter).openNew room = (.ok (), w)) :
    ∃ full bytes, fileAfter cfg.codec cfg.std [s] = .ok (some full) ∧ (putsUntil cfg.codec cfg.std s.compress w s.puts).2.close.2.2 = some bytes ∧
      (full.length ≤ room → bytes = full ∧ (putsUntil cfg.codec cfg.std s.compress w s.puts).1 = .ok () ∧ (putsUntil cfg.codec cfg.std s.compress w s.puts).2.close.1 = .ok ()) ∧
      (room < full.length → ∃ k ≤ s.puts.length,
        ((putsUntil cfg.codec cfg.std s.compress w s.puts).1 = .error .ioFailure ∧ k < s.puts.length ∨ (putsUntil cfg.codec cfg.std s.compress w s.puts).1 = .ok () ∧ k = s.puts.length) ∧
        (0 < k → ∃ e, (putsUntil cfg.codec cfg.std s.compress w s.puts).2.close.1 = .error e) ∧ ∃ m, k ≤ m ∧ m ≤ k + 1 ∧ m ≤ s.puts.length ∧ HasFirst cfg name bytes ds m) := by
  have hne : s.puts ≠ [] := by
    obtain ⟨a, b, e, h⟩ := hs.first
    injection e with e1 _
    subst e1
    exact h
  have serve_eq : ∀ gs n, serve cfg gs ((s.puts.take n).map fun p => (name, p)) = inTurn gs (ds.take n) := by
    intro gs n
    refine serve_inTurn cfg gs _ _ ⟨by rw [List.length_map, List.length_take, List.length_take, hd.1], fun i x y hx hy => ?_⟩
    rw [List.getElem?_map] at hx
    cases hp : (s.puts.take n)[i]? with
    | none => rw [hp] at hx; cases hx
    | some p =>
      rw [hp] at hx
      simp only [Option.map_some, Option.some.injEq] at hx
      subst hx
      rw [List.getElem?_take] at hp hy
      split at hp
      · rename_i hi
        rw [if_pos hi] at hy
        exact hd.2 i p y hp hy
      · cases hp
  have hall : ∀ x : Session, allPuts [x] = x.puts := fun x => by simp [allPuts]
  obtain ⟨w1, old, full, h1, h2, h3⟩ := C112_full_disk cfg hcodec [] s hs hne (by rw [List.nil_append, hall]; exact hl) name
  simp only [runSessions, Except.ok.injEq, Prod.mk.injEq] at h1
  obtain ⟨rfl, rfl⟩ := h1
  obtain ⟨outs, closed, lw, e1, e2, e3, e4⟩ := h3 room (by simp)
  obtain ⟨w', o1, o2⟩ := new_session cfg.codec cfg.std room s
  rw [hw] at o1
  simp only [Prod.mk.injEq, true_and] at o1
  subst o1
  rw [show (({} : Writer).ra) = ({} : RaMgr) from rfl, o2] at e1
  simp only [Except.ok.injEq, Prod.mk.injEq] at e1
  obtain ⟨rfl, rfl, -, f4⟩ := e1
  by_cases hroom : full.length ≤ room
  · obtain ⟨g1, g2⟩ := e3 hroom
    rw [putsUntil_ok _ _ _ _ _ g1]
    refine ⟨full, _, h2, f4, fun _ => ⟨List.take_of_length_le hroom, rfl, g2⟩, fun h => by omega⟩
  · obtain ⟨k, k1, k2, k3, -, k4, m, m1, m2, r, r1, r2⟩ := e4 (by omega)
    rw [List.nil_append, hall] at m2 r2
    have m1 : k ≤ m := by simpa [allPuts] using m1
    by_cases hk : k = s.puts.length
    · have g1 : ∀ r ∈ (w.putAll cfg.codec cfg.std s.compress s.puts).1, r = .ok () := by
        intro r hr
        obtain ⟨i, hi⟩ := List.getElem?_of_mem hr
        have hlt := (List.getElem?_eq_some_iff.1 hi).1
        rw [putAll_length, ← hk] at hlt
        rw [k2 i hlt] at hi
        injection hi with hi
        exact hi.symm
      rw [putsUntil_ok _ _ _ _ _ g1]
      refine ⟨full, _, h2, f4, fun h => absurd h hroom, fun _ => ⟨k, k1, .inr ⟨rfl, hk⟩, fun h0 => ?_, m, m1, by omega, m2, r, r1, fun gs => ?_⟩⟩
      · rcases (k4 h0).1 with h | h <;> exact ⟨_, h⟩
      · rw [← serve_eq]; exact r2 gs
    · have hk3 := k3 (by omega)
      have hput := putsUntil_error cfg.codec cfg.std s.compress _ s.puts w k k2 hk3
      rw [hput]
      let s' : Session := ⟨s.compress, s.puts.take (k + 1)⟩
      have hlen' : s'.puts.length = k + 1 := List.length_take_of_le (Nat.lt_of_le_of_ne k1 hk)
      have hs0 := hs.each s (by simp)
      have hcount := hs.count
      rw [hall] at hcount
      have hne' : s'.puts ≠ [] := by
        intro h
        have := congrArg List.length h
        simp only [s', List.length_take, List.length_nil] at this
        omega
      have hs' : SessionsOk cfg.codec cfg.std ([] ++ [s']) := by
        refine ⟨fun x hx => ?_, ⟨s', [], rfl, hne'⟩, ?_⟩
        · rw [List.nil_append, List.mem_singleton] at hx
          subst hx
          exact ⟨fun p hp => hs0.puts p (List.mem_of_mem_take hp), fun p hp q hq => hs0.runs p (List.mem_of_mem_take hp) q (List.mem_of_mem_take hq)⟩
        · rw [List.nil_append, hall]
          simp only [s', List.length_take]
          omega
      obtain ⟨w2, old2, full', p1, p2, p3⟩ := C112_full_disk cfg hcodec [] s' hs' hne' (by rw [List.nil_append, hall]; exact fun p hp => hl p (List.mem_of_mem_take hp)) name
      simp only [runSessions, Except.ok.injEq, Prod.mk.injEq] at p1
      obtain ⟨rfl, rfl⟩ := p1
      obtain ⟨outs', closed', lw', q1, q2, q3, q4⟩ := p3 room (by simp)
      obtain ⟨w3, u1, u2⟩ := new_session cfg.codec cfg.std room s'
      rw [hw] at u1
      simp only [Prod.mk.injEq, true_and] at u1
      subst u1
      rw [show (({} : Writer).ra) = ({} : RaMgr) from rfl, u2] at q1
      simp only [Except.ok.injEq, Prod.mk.injEq] at q1
      obtain ⟨rfl, rfl, -, v4⟩ := q1
      have houts : (w.putAll cfg.codec cfg.std s'.compress s'.puts).1 = (w.putAll cfg.codec cfg.std s.compress s.puts).1.take (k + 1) := putAll_take _ _ _ _ _ _
      have hbad : (w.putAll cfg.codec cfg.std s'.compress s'.puts).1[k]? = some (.error .ioFailure) := by
        rw [houts, List.getElem?_take, if_pos (by omega)]
        exact hk3
      have hroom' : room < full'.length := by
        apply Nat.lt_of_not_le
        intro hle
        have := (q3 hle).1 _ (List.mem_of_getElem? hbad)
        cases this
      obtain ⟨k', k1', k2', k3', -, k4', m', m1', m2', r', r1', r2'⟩ := q4 hroom'
      clear q4 q3 p3 h3 e4 e3
      rw [List.nil_append, hall] at m2' r2'
      have m1' : k' ≤ m' := by simpa [allPuts] using m1'
      have hkk : k' = k := by
        rcases Nat.lt_trichotomy k' k with h | h | h
        · have a := k3' (by omega)
          rw [houts, List.getElem?_take, if_pos (by omega), k2 k' h] at a
          cases a
        · exact h
        · have a := k2' k h
          rw [hbad] at a
          cases a
      subst hkk
      refine ⟨full, _, h2, v4, fun h => absurd h hroom, fun _ => ⟨k', k1, .inl ⟨rfl, by omega⟩, fun h0 => ?_, m', m1', by omega, by omega, r', r1', fun gs => ?_⟩⟩
      · rcases (k4' h0).1 with h | h <;> exact ⟨_, h⟩
      · have a := r2' gs
        have : s'.puts.take m' = s.puts.take m' := by simp only [s', List.take_take]; rw [Nat.min_eq_left (by omega)]
        rw [this, serve_eq] at a
        exact a

/-- What the program does if it is known what is read. -/
theorem merge_on_disk (cfg : RConfig) (hcodec : Lossless cfg.codec) (hsort : SortLaw cfg.std)
    (hflt : ∀ x, viaFloat cfg.std (viaFloat cfg.std x) = viaFloat cfg.std x) (its : List (Str × Put))
    (hst : ∀ x ∈ its, ∀ h cols buf, x.2 = .event h cols buf →
      Storable cfg.std cfg.ignoreNull [] cfg.wanted h cols ∧ Copyable (wantedCols cfg.wanted (storedCols [] cols)))
    (compress : Bool) (limit : Nat) (hz : compress = true → CompressesUpTo cfg.codec limit)
    (hr : ∀ x ∈ its, Rewritable limit cfg.std x.1 x.2) (hcount : its.length < 2 ^ 27)
    (hruns : ∀ x ∈ its, ∀ y ∈ its,
      -2 ^ 31 ≤ x.2.key.run.toInt - y.2.key.run.toInt ∧ x.2.key.run.toInt - y.2.key.run.toInt < 2 ^ 31) (bufs : Nat → Str × Str) (out : Str)
    (files : List (Str × List Byte)) (r : Reader) (log : List (Nat × Delivery)) (res : Except Err Unit) (r2 : Reader)
    (c1 : Reader.openFiles cfg false files = (.ok (), r)) (c2 : r.readStream cfg 1 intMax = (log, res, r2))
    (c3 : ∀ ds, All2 (fun x d => delivery cfg x.1 x.2 = some d) its ds → log.map (·.2) = ds) :
    ∃ full r' ds ds', All2 (fun x d => delivery cfg x.1 x.2 = some d) its ds ∧ mergeFiles cfg compress bufs files = .ok (some full, res) ∧
      Reader.openFiles { cfg with wanted := [] } false [(out, full)] = (.ok (), r') ∧ (∀ gs, gets { cfg with wanted := [] } gs r' = .ok (inTurn gs ds')) ∧
      All2 (CopyIn out) ds ds' ∧
      ∀ room, ∃ ending bytes, mergeOnDisk cfg compress bufs room files = .ok (ending, some bytes) ∧
        (full.length ≤ room → ending = endOf (.ok ()) res ∧ bytes = full) ∧
        (room < full.length → ∃ k m, k ≤ m ∧ m ≤ k + 1 ∧ m ≤ ds'.length ∧ HasFirst { cfg with wanted := [] } out bytes ds' m ∧
          (ending = .terminated ∨ (k = 0 ∧ ending = .message .ioFailure))) := by
  obtain ⟨full, r', ds, ds', a1, a2, a3, a4, a5, a6⟩ := rewritten_deliveries cfg hcodec hsort hflt _ hst compress limit hz hr hcount hruns bufs out
  have hlog : log.map (·.2) = ds := c3 ds a1
  refine ⟨full, r', ds, ds', a1, ?_, a3, a4, a5, fun room => ?_⟩
  · unfold mergeFiles
    rw [c1]
    simp only []
    rw [c2]
    simp only []
    rw [hlog, a2]
    rfl
  let s : Session := ⟨compress, rewrites bufs 0 ds⟩
  have hfile : ∀ f, fileAfter cfg.codec cfg.std [s] = .ok (some f) → f = full := by
    intro f hf
    unfold rewriteAll at a2
    unfold fileAfter runSessions Session.run at hf
    revert hf a2
    cases ({} : Writer).openNew with
    | error e => intro _ hf; cases hf
    | ok w =>
      simp only [bind, Except.bind, s]
      cases putAll cfg.codec cfg.std compress w (rewrites bufs 0 ds) with
      | error e => intro _ hf; cases hf
      | ok w =>
        simp only []
        cases w.close with
        | error e => intro _ hf; cases hf
        | ok x =>
          intro a2 hf
          simp only [runSessions, pure, Except.pure, Except.ok.injEq] at a2 hf
          rw [a2] at hf
          injection hf with hf
          exact hf.symm
  obtain ⟨w, hw, -⟩ := new_session cfg.codec cfg.std room s
  have hdisk : mergeOnDisk cfg compress bufs room files = .ok (endOf (putsUntil cfg.codec cfg.std compress w (rewrites bufs 0 ds)).2.close.1
      (match (putsUntil cfg.codec cfg.std compress w (rewrites bufs 0 ds)).1 with | .error e => .error e | .ok () => res), (putsUntil cfg.codec cfg.std compress w (rewrites bufs 0 ds)).2.close.2.2) := by
    unfold mergeOnDisk
    rw [c1]
    simp only []
    rw [c2]
    simp only []
    rw [hw]
    simp only []
    rw [hlog]
    cases (putsUntil cfg.codec cfg.std compress w (rewrites bufs 0 ds)).1 <;> rfl
  by_cases hnil : rewrites bufs 0 ds = []
  · have hf : full = [] := (hfile [] (by simp only [s, hnil]; rfl)).symm
    have hx : ({} : LimWriter).openNew room = (.ok (), { stream := some { s := { bytes := [] }, limit := room } }) := rfl
    rw [hx] at hw
    injection hw with _ hw
    refine ⟨endOf (.ok ()) res, [], ?_, fun _ => ⟨rfl, hf.symm⟩, fun h => by rw [hf] at h; simp at h⟩
    rw [hdisk, hnil, ← hw]
    rfl
  · obtain ⟨ds1, b1, b2⟩ := rewritten_all cfg hsort hflt compress limit hz out bufs _ hr hst
    have hds : ds1 = ds := by rw [← hlog, c3 _ b1]
    subst hds
    obtain ⟨q1, q2, -⟩ := b2 0
    have hs : SessionsOk cfg.codec cfg.std [s] := by
      refine ⟨fun x hx => ?_, ⟨s, [], rfl, hnil⟩, by simp only [allPuts, List.flatMap_cons, List.flatMap_nil, List.append_nil, s]; rw [q2]; exact hcount⟩
      rw [List.mem_singleton] at hx
      subst hx
      refine ⟨fun p hp => (q1 p hp).1, fun p hp q hq => ?_⟩
      obtain ⟨x, hx, hxp⟩ := List.mem_map.1 (q1 p hp).2
      obtain ⟨y, hy, hyq⟩ := List.mem_map.1 (q1 q hq).2
      rw [← hxp, ← hyq]
      exact hruns x hx y hy
    have hl' : Loadable { cfg with wanted := [] } s.puts := by
      intro p hp file
      obtain ⟨i, hi⟩ := List.getElem?_of_mem hp
      have hlt : i < ds'.length := by rw [← a6.1]; exact (List.getElem?_eq_some_iff.1 hi).1
      have := a6.2 i p _ hi (List.getElem?_eq_getElem hlt)
      cases p with
      | run h buf => simp [delivery, Put.loadedRun]
      | event h cols buf =>
        simp only [delivery] at this ⊢
        rw [this]; simp
    obtain ⟨full', bytes, g1, g2, g3, g4⟩ := written_on_disk { cfg with wanted := [] } hcodec s hs hl' out ds' a6 room w hw
    have := hfile full' g1
    subst this
    refine ⟨_, bytes, by rw [hdisk]; rw [show (putsUntil cfg.codec cfg.std compress w (rewrites bufs 0 ds1)).2.close.2.2 = some bytes from g2], fun hroom => ?_, fun hroom => ?_⟩
    · obtain ⟨e1, e2, e3⟩ := g3 hroom
      refine ⟨?_, e1⟩
      rw [show (putsUntil cfg.codec cfg.std compress w (rewrites bufs 0 ds1)).1 = .ok () from e2, show (putsUntil cfg.codec cfg.std compress w (rewrites bufs 0 ds1)).2.close.1 = .ok () from e3]
    · obtain ⟨k, k1, k2, k3, m, m1, m2, m3, m4⟩ := g4 hroom
      refine ⟨k, m, m1, m2, by rw [← a6.1]; exact m3, m4, ?_⟩
      by_cases h0 : 0 < k
      · obtain ⟨e, he⟩ := k3 h0
        rw [show (putsUntil cfg.codec cfg.std compress w (rewrites bufs 0 ds1)).2.close.1 = .error e from he]
        exact .inl rfl
      · have hk : k = 0 := by omega
        rcases k2 with ⟨k2, -⟩ | ⟨-, k2⟩
        · rw [show (putsUntil cfg.codec cfg.std compress w (rewrites bufs 0 ds1)).1 = .error .ioFailure from k2]
          cases (putsUntil cfg.codec cfg.std compress w (rewrites bufs 0 ds1)).2.close.1 with
          | error e => exact .inl rfl
          | ok u => exact .inr ⟨hk, rfl⟩
        · exact absurd (List.length_eq_zero_iff.1 (k2.symm.trans hk)) hnil

/-- **C121** (partial). Files, each written in any number of sessions, are merged with `lcio_merge_files` (or one of them is copied with `copyfix`), and there is room for `room` bytes in the new file. `full` is the file
that is made on a large disk; reading it gives `ds'` (C71). If it fits, the program makes it and ends without a message. If it does not, the things that were written completely, the first `k` ones, can be read from the new file
(perhaps also the one after them), and the program is terminated, so that whoever started it sees that it failed, except if not a single thing could be written: then it may also end with status 0, after
a message that something went wrong. -/
theorem C121_full_disk_partial (cfg : RConfig) (hcodec : Lossless cfg.codec) (hsort : SortLaw cfg.std)
    (hflt : ∀ x, viaFloat cfg.std (viaFloat cfg.std x) = viaFloat cfg.std x) (files : List (Str × List Byte)) (contents : List (Str × List Session))
    (h : FilesHold cfg.codec cfg.std files contents) (hne : files ≠ [])
    (hst : ∀ x ∈ contentsOf contents, ∀ h cols buf, x.2 = .event h cols buf →
      Storable cfg.std cfg.ignoreNull [] cfg.wanted h cols ∧ Copyable (wantedCols cfg.wanted (storedCols [] cols)))
    (compress : Bool) (limit : Nat) (hz : compress = true → CompressesUpTo cfg.codec limit)
    (hr : ∀ x ∈ contentsOf contents, Rewritable limit cfg.std x.1 x.2) (hcount : (contentsOf contents).length < 2 ^ 27)
    (hruns : ∀ x ∈ contentsOf contents, ∀ y ∈ contentsOf contents,
      -2 ^ 31 ≤ x.2.key.run.toInt - y.2.key.run.toInt ∧ x.2.key.run.toInt - y.2.key.run.toInt < 2 ^ 31) (bufs : Nat → Str × Str) (out : Str) :
    ∃ full r' ds', mergeFiles cfg compress bufs files = .ok (some full, .ok ()) ∧ ds'.length = (contentsOf contents).length ∧
      Reader.openFiles { cfg with wanted := [] } false [(out, full)] = (.ok (), r') ∧ (∀ gs, gets { cfg with wanted := [] } gs r' = .ok (inTurn gs ds')) ∧
      ∀ room, ∃ ending bytes, mergeOnDisk cfg compress bufs room files = .ok (ending, some bytes) ∧
        (full.length ≤ room → ending = .done ∧ bytes = full) ∧
        (room < full.length → ∃ k m, k ≤ m ∧ m ≤ k + 1 ∧ m ≤ ds'.length ∧ HasFirst { cfg with wanted := [] } out bytes ds' m ∧
          (ending = .terminated ∨ (k = 0 ∧ ending = .message .ioFailure))) := by
  have hl : ∀ c ∈ contents, Loadable cfg (allPuts c.2) := by
    intro c hc p hp file
    have : (c.1, p) ∈ contentsOf contents := by
      unfold contentsOf items
      exact List.mem_flatMap.2 ⟨_, List.mem_map_of_mem hc, List.mem_map.2 ⟨p, hp, rfl⟩⟩
    cases p with
    | run h buf => simp [delivery, Put.loadedRun]
    | event h cols buf =>
      obtain ⟨h', L, T, e1, -⟩ := event_loaded cfg.std cfg.ignoreNull [] cfg.wanted h cols (hst _ this h cols buf rfl).1 buf 0 1 (by omega)
      simp only [delivery, e1]
      simp
  obtain ⟨r, log, r2, c1, c2, c3⟩ := C33_everything_partial cfg hcodec files contents h hne hl 1 (Or.inl (Nat.le_refl 1))
  obtain ⟨full, r', ds, ds', a1, a2, a3, a4, a5, a6⟩ := merge_on_disk cfg hcodec hsort hflt _ hst compress limit hz hr hcount hruns bufs out files r log _ r2 c1 c2
    (fun ds h => by rw [c3, handed_single cfg _ _ h])
  exact ⟨full, r', ds', a2, by rw [← a5.1, ← a1.1], a3, a4, a6⟩

/-- **C121** (partial), `copyfix` with a damaged file. As in C71 the machine stops while a session `s` writes to a file after some sessions `ss`, with `n` bytes written, at least as many as the file had before; `m` things in it are complete.
There is room for `room` bytes in the new file; `full` is the file that is made on a large disk. If it fits, the program makes it and ends with status 0, perhaps with the message that the end of the damaged file could not be read. If it does
not, it is as with other files. -/
theorem C121_fix_partial (cfg : RConfig) (hcodec : Lossless cfg.codec) (hsort : SortLaw cfg.std)
    (hflt : ∀ x, viaFloat cfg.std (viaFloat cfg.std x) = viaFloat cfg.std x) (ss : List Session) (s : Session) (hs : SessionsOk cfg.codec cfg.std (ss ++ [s]))
    (hne : s.puts ≠ [])
    (hst : ∀ p ∈ allPuts (ss ++ [s]), ∀ h cols buf, p = .event h cols buf →
      Storable cfg.std cfg.ignoreNull [] cfg.wanted h cols ∧ Copyable (wantedCols cfg.wanted (storedCols [] cols)))
    (compress : Bool) (limit : Nat) (hz : compress = true → CompressesUpTo cfg.codec limit) (name out : Str)
    (hr : ∀ p ∈ allPuts (ss ++ [s]), Rewritable limit cfg.std name p)
    (hruns : ∀ p ∈ allPuts (ss ++ [s]), ∀ q ∈ allPuts (ss ++ [s]),
      -2 ^ 31 ≤ p.key.run.toInt - q.key.run.toInt ∧ p.key.run.toInt - q.key.run.toInt < 2 ^ 31) (bufs : Nat → Str × Str) :
    ∃ w old new, runSessions cfg.codec cfg.std {} none ss = .ok (w, old) ∧ fileAfter cfg.codec cfg.std (ss ++ [s]) = .ok (some new) ∧
      ∀ n, (old.getD []).length ≤ n → ∃ m ≤ (allPuts (ss ++ [s])).length,
        (allPuts ss).length ≤ m ∧
        (∀ i ≤ s.puts.length, ∃ w', s.after cfg.codec cfg.std w old i = .ok w' ∧ (reached w' ≤ n → (allPuts ss).length + i ≤ m)) ∧
        ∃ full res r' ds ds', mergeFiles cfg compress bufs [(name, crashed old new n)] = .ok (some full, res) ∧
          All2 (fun p d => delivery cfg name p = some d) ((allPuts (ss ++ [s])).take m) ds ∧
          Reader.openFiles { cfg with wanted := [] } false [(out, full)] = (.ok (), r') ∧ (∀ gs, gets { cfg with wanted := [] } gs r' = .ok (inTurn gs ds')) ∧
          All2 (CopyIn out) ds ds' ∧
          ∀ room, ∃ ending bytes, mergeOnDisk cfg compress bufs room [(name, crashed old new n)] = .ok (ending, some bytes) ∧
            (full.length ≤ room → bytes = full ∧ ((res = .ok () ∧ ending = .done) ∨ ∃ e, res = .error e ∧ ending = .message e ∧ (e = .noMarker ∨ e = .badState ∨ e = .ioFailure))) ∧
            (room < full.length → ∃ k j, k ≤ j ∧ j ≤ k + 1 ∧ j ≤ ds'.length ∧ HasFirst { cfg with wanted := [] } out bytes ds' j ∧
              (ending = .terminated ∨ (k = 0 ∧ ending = .message .ioFailure))) := by
  have hl : Loadable cfg (allPuts (ss ++ [s])) := by
    intro p hp file
    cases p with
    | run h buf => simp [delivery, Put.loadedRun]
    | event h cols buf =>
      obtain ⟨h', L, T, e1, -⟩ := event_loaded cfg.std cfg.ignoreNull [] cfg.wanted h cols (hst _ hp h cols buf rfl).1 buf 0 1 (by omega)
      simp only [delivery, e1]
      simp
  obtain ⟨w, old, new, h1, h2, h3⟩ := crash_ahead cfg hcodec ss s hs hne hl name
  refine ⟨w, old, new, h1, h2, fun n hn => ?_⟩
  obtain ⟨m, m0, m1, m2, r, o1, ha⟩ := h3 n hn
  refine ⟨m, m0, m1, m2, ?_⟩
  have hcount := hs.count
  have hlen : ((allPuts (ss ++ [s])).take m).length < 2 ^ 27 := by rw [List.length_take]; omega
  have hmem : ∀ x ∈ ((allPuts (ss ++ [s])).take m).map fun p => (name, p), x.1 = name ∧ x.2 ∈ allPuts (ss ++ [s]) := by
    intro x hx
    obtain ⟨p, hp, rfl⟩ := List.mem_map.1 hx
    exact ⟨rfl, List.mem_of_mem_take hp⟩
  obtain ⟨res, r2, c1, c2⟩ := cut_stream cfg 1 r name _ ha (fun p hp => hl p (List.mem_of_mem_take hp) name) (Nat.le_refl 1) (by unfold intMax; omega)
  obtain ⟨full, r', ds, ds', a1, a2, a3, a4, a5, a6⟩ := merge_on_disk cfg hcodec hsort hflt (((allPuts (ss ++ [s])).take m).map fun p => (name, p))
    (fun x hx => hst x.2 (hmem x hx).2) compress limit hz (fun x hx => by rw [(hmem x hx).1]; exact hr x.2 (hmem x hx).2) (by rw [List.length_map]; exact hlen)
    (fun x hx y hy => hruns x.2 (hmem x hx).2 y.2 (hmem y hy).2) bufs out _ r _ res r2 o1 c1 (fun ds h => by rw [handed_single cfg _ _ h])
  refine ⟨full, res, r', ds, ds', a2, ?_, a3, a4, a5, fun room => ?_⟩
  · refine ⟨by rw [← a1.1, List.length_map], fun i p d hp hd => a1.2 i (name, p) d ?_ hd⟩
    rw [List.getElem?_map, hp]
    rfl
  · obtain ⟨ending, bytes, b1, b2, b3⟩ := a6 room
    refine ⟨ending, bytes, b1, fun h => ?_, b3⟩
    obtain ⟨e1, e2⟩ := b2 h
    refine ⟨e2, ?_⟩
    rcases c2 with rfl | ⟨e, rfl, he⟩
    · exact .inl ⟨rfl, e1⟩
    · exact .inr ⟨e, rfl, e1, he⟩

/-! ### Cases -/

/-- How the program ends that merges a file with three run headers with itself, and how long the new file is. -/
def mergeResult (room : Nat) : Option (ProgramEnd × Option Nat) :=
  match fileAfter idCodec ieee [diskSession] with
  | .ok (some f) => match mergeOnDisk sampleCfg false (fun _ => ([], [])) room [(str "f", f), (str "g", f)] with
    | .ok (e, file) => some (e, file.map List.length)
    | .error _ => none
  | _ => none

/-- **C121** fails for a disk that is full from the beginning: the program ends with status 0, and there is an empty file. -/
theorem C121_fails_no_room : ∃ files cfg compress bufs room, (∃ full, mergeFiles cfg compress bufs files = .ok (some full, .ok ()) ∧ room < full.length) ∧
    mergeOnDisk cfg compress bufs room files = .ok (.message .ioFailure, some []) := by
  have h : ∃ f, fileAfter idCodec ieee [diskSession] = .ok (some f) ∧ (∃ full, mergeFiles sampleCfg false (fun _ => ([], [])) [(str "f", f)] = .ok (some full, .ok ()) ∧ 0 < full.length) ∧
      mergeOnDisk sampleCfg false (fun _ => ([], [])) 0 [(str "f", f)] = .ok (.message .ioFailure, some []) := by
    have : (match fileAfter idCodec ieee [diskSession] with
      | .ok (some f) => (match mergeFiles sampleCfg false (fun _ => ([], [])) [(str "f", f)] with
        | .ok (some full, .ok ()) => decide (0 < full.length)
        | _ => false) && (match mergeOnDisk sampleCfg false (fun _ => ([], [])) 0 [(str "f", f)] with
        | .ok (.message .ioFailure, some []) => true
        | _ => false)
      | _ => false) = true := by decide +kernel
    split at this
    · rename_i f hf
      rw [Bool.and_eq_true] at this
      obtain ⟨t1, t2⟩ := this
      refine ⟨f, hf, ?_, ?_⟩
      · split at t1
        · rename_i full hfull
          exact ⟨full, hfull, of_decide_eq_true t1⟩
        · cases t1
      · split at t2
        · assumption
        · cases t2
    · cases this
  obtain ⟨f, -, h1, h2⟩ := h
  exact ⟨_, _, _, _, _, h1, h2⟩

/-- There is room for the first run header; for all but the index; for everything; for nothing. -/
example : mergeResult 150 = some (.terminated, some 150) ∧ mergeResult 1000 = some (.terminated, some 1000) ∧
    (mergeResult 5000).map (·.1) = some .done ∧ mergeResult 20 = some (.message .ioFailure, some 20) := by
  decide +kernel

/-- The hypotheses of the theorem are met by three files: ten run headers and events are merged. -/
example (bufs : Nat → Str × Str) : ∃ files full r' ds', mergeFiles sampleCfg true bufs files = .ok (some full, .ok ()) ∧ files.length = 3 ∧ ds'.length = 10 ∧
    Reader.openFiles sampleCfg false [(str "out", full)] = (.ok (), r') ∧ (∀ gs, gets sampleCfg gs r' = .ok (inTurn gs ds')) ∧
    ∀ room, ∃ ending bytes, mergeOnDisk sampleCfg true bufs room files = .ok (ending, some bytes) ∧
      (full.length ≤ room → ending = .done ∧ bytes = full) ∧
      (room < full.length → ∃ k m, k ≤ m ∧ m ≤ k + 1 ∧ m ≤ ds'.length ∧ HasFirst sampleCfg (str "out") bytes ds' m ∧
        (ending = .terminated ∨ (k = 0 ∧ ending = .message .ioFailure))) := by
  obtain ⟨bytes0, h⟩ := sampleFiles_hold
  obtain ⟨full, r', ds', h1, h2, h3, h4, h5⟩ := C121_full_disk_partial sampleCfg idCodec_lossless ieee_sort viaFloat_twice _ _ h (by simp)
    (fun x hx => sample_copyable x.2 (sample_mergeable x hx).2) true (2 ^ 31) (fun _ => idCodec_compresses)
    (fun x hx => sample_rewritable x.1 (sample_mergeable x hx).1 x.2 (sample_mergeable x hx).2) (by decide)
    (fun x hx y hy => sample_runs x.2 (sample_mergeable x hx).2 y.2 (sample_mergeable y hy).2) bufs (str "out")
  exact ⟨_, full, r', ds', h1, rfl, h2, h3, h4, h5⟩

/-- The hypotheses of the second theorem are met by the sample sessions. -/
example (bufs : Nat → Str × Str) : ∃ w old new, runSessions sampleCfg.codec sampleCfg.std {} none (sampleSessions.take 2) = .ok (w, old) ∧
    fileAfter sampleCfg.codec sampleCfg.std sampleSessions = .ok (some new) ∧
    ∀ n, (old.getD []).length ≤ n → ∃ full res, mergeFiles sampleCfg false bufs [(str "f", crashed old new n)] = .ok (some full, res) ∧
      ∀ room, ∃ ending bytes, mergeOnDisk sampleCfg false bufs room [(str "f", crashed old new n)] = .ok (ending, some bytes) ∧ (full.length ≤ room → bytes = full) := by
  obtain ⟨w, old, new, h1, h2, h3⟩ := C121_fix_partial sampleCfg idCodec_lossless ieee_sort viaFloat_twice (sampleSessions.take 2)
    (sampleSessions.getLast (by simp [sampleSessions])) sampleSessions_ok (by simp [sampleSessions]) sample_copyable false (2 ^ 31) (by simp) (str "f") (str "out")
    (sample_rewritable (str "f") (by simp)) sample_runs bufs
  refine ⟨w, old, new, h1, h2, fun n hn => ?_⟩
  obtain ⟨m, -, -, -, full, res, r', ds, ds', c1, -, -, -, -, c2⟩ := h3 n hn
  refine ⟨full, res, c1, fun room => ?_⟩
  obtain ⟨ending, bytes, d1, d2, -⟩ := c2 room
  exact ⟨ending, bytes, d1, fun h => (d2 h).1⟩

end Props
