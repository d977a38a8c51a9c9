import Verif.Lcio.MtDiskLemmas
import Verif.Props.Mt
import Verif.Props.FullDisk
/-
Several threads that write to a disk that becomes full: C115.
-/
namespace Props
open Sio Spec Lcio

/-- **C115**, the order. Any number of threads write run headers and events with one writer to an open file that cannot become longer than `limit`, in any interleaving of their steps (with changes of the compression
level at any time). Whenever nobody holds the mutex there is an order of the calls that returned without exception, in which the calls of each thread are in the order in which the thread made them, and the event map is
the one of a writer that makes just these calls, one after the other, on a larger disk: nothing that is not in the file is in the index. Either the file is as on that disk too; or there is a call `f`, which has
thrown, and the file has the first `limit` bytes of what it would have after these calls and `f`. In that case, whatever the threads do then, no call returns without exception, and file and index stay as they are. -/
theorem C115_order (codec : Codec) (std : Std Pid) (w0 : Writer) (o : OStream) (hw : w0.stream = some o) (hin : o.pos ≤ o.bytes.length) (limit : Nat) (hl : o.bytes.length ≤ limit)
    (prog : Nat → List MtCall) (maxBuf : Nat) (level : Int) (schedule : List MtChoice) :
    let s := (diskStart limit w0 prog maxBuf level).run codec std schedule
    (∀ t, ∃ rest, (s.threads t).results.map (·.1) ++ rest = prog t) ∧
    (s.owner = none → ∃ (order : List Turn) (w : Writer) (q : LimStream) (st : OStream), (∀ t, turnsOf t order = succeeded (s.threads t)) ∧
      putEach codec std w0 (order.map Turn.put) = .ok w ∧ w.stream = some st ∧ s.ra = some w.ra ∧ s.stream = some q ∧
      ((q.good = true ∧ q.s = st ∧ st.bytes.length ≤ limit) ∨
       (q.good = false ∧
        (∃ (f : Turn) (w' : Writer) (st' : OStream), putEach codec std w0 ((order ++ [f]).map Turn.put) = .ok w' ∧ w'.stream = some st' ∧ q.s.bytes = st'.bytes.take limit ∧
          limit < st'.bytes.length ∧ (f.call, .error .ioFailure) ∈ (s.threads f.thread).results) ∧
        ∀ more, (s.run codec std more).stream = s.stream ∧ (s.run codec std more).ra = s.ra ∧ ∀ t, succeeded ((s.run codec std more).threads t) = succeeded (s.threads t)))) := by
  intro s
  obtain ⟨order, h⟩ := (DiskInv.start codec std (fun _ => True) w0 o limit hw hin hl prog maxBuf level trivial).run schedule (fun _ _ => trivial)
  refine ⟨fun t => ⟨_, by rw [← List.append_assoc]; exact h.calls t⟩, fun ho => ?_⟩
  obtain ⟨w, h1, h2⟩ := h.seq
  have ho' : ((diskStart limit w0 prog maxBuf level).run codec std schedule).owner = none := ho
  rw [ho'] at h2
  obtain ⟨⟨q, st, a1, a2, a3, a4, a5⟩, h3⟩ := h2
  refine ⟨order, w, q, st, h.turns, h1, a3, a4, a1, ?_⟩
  rcases a5 with ⟨a5, a6⟩ | ⟨a5, a6, f, w', st', a7, a8, a9, a10, a11⟩
  · obtain ⟨b1, b2⟩ := a6.same a5
    exact .inl ⟨a5, b1, by rw [← a2]; exact b2⟩
  · obtain ⟨b1, b2, b3⟩ := a9.cut a5
    refine .inr ⟨a5, ⟨f, w', st', a7, a8, by rw [← a2]; exact b1, by rw [← a2, ← b3]; exact b2, a11⟩, fun more => ?_⟩
    have hlost : Lost q (some w.ra) (fun t => succeeded (s.threads t)) s := by
      refine ⟨a1, a4, fun _ => rfl, fun t => ?_⟩
      have hr := h.right t
      have hc := h3 t
      show ((((diskStart limit w0 prog maxBuf level).run codec std schedule).threads t).phase).Hopeless
      cases hph : (((diskStart limit w0 prog maxBuf level).run codec std schedule).threads t).phase with
      | waiting call n c script =>
        rw [hph] at hr
        obtain ⟨-, recs, parts, size, -, -, rfl⟩ := hr
        exact ⟨_, rfl⟩
      | inside call n c script pos out =>
        rw [hph] at hc
        simp [MtPhase.inCall] at hc
      | _ => trivial
    have := Lost.run a5 codec std more hlost
    exact ⟨this.stream.trans a1.symm, this.ra.trans a4.symm, this.done⟩

theorem each_all (codec : Codec) (std : Std Pid) (c : Bool) : ∀ (l : List Turn) (v : Writer), (∀ u ∈ l, u.compress = c) →
    putEach codec std v (l.map Turn.put) = putAll codec std c v (l.map fun u => u.call.put u.size) := by
  intro l
  induction l with
  | nil => intro v _; rfl
  | cons u l ih =>
    intro v hv
    simp only [List.map_cons, putEach, putAll, Turn.put, hv u (by simp)]
    cases hc : (u.call.put u.size).call codec std c v with
    | mk r v' =>
      cases r with
      | error e => rfl
      | ok _ => exact ih v' (fun u hu => hv u (by simp [hu]))

theorem succeeded_mem {th : MtThread} {call : MtCall} (h : call ∈ succeeded th) : call ∈ th.results.map (·.1) := by
  unfold succeeded at h
  obtain ⟨r, hr, rfl⟩ := List.mem_map.1 h
  exact List.mem_map.2 ⟨r, (List.mem_filter.1 hr).1, rfl⟩

/-- **C115**, what is in the file. Any number of threads write run headers and events that can be written with one writer to a new file, on a disk with room for `limit` bytes, in any interleaving of their steps, until they
are done; they go on after exceptions. Then the writer is closed. There is an order of the calls that returned without exception, in which the calls of each thread are in the order in which the thread made them. `new` is
the file that one thread makes on a larger disk that makes these calls, and one more (`extra`) if the disk became full in a call, which has thrown.
* In the file are the first `limit` bytes of `new`.
* If it fits, no call throws, and `close` does not throw. If it does not fit, a call has thrown, or `close` throws that the records could not be
  written. If a call was stopped by the disk, `close` throws that the stream is bad, except if no call has succeeded: then it returns normally.
* If no call was stopped by the disk, no call has thrown at all.
* A reader that opens the file gets everything that was written by calls that returned without exception, in this order, then null or an exception (or, before that, also `extra`). -/
theorem C115_file (cfg : RConfig) (hcodec : Lossless cfg.codec) (w0 : Writer) (hw : Writer.openNew {} = .ok w0) (N : Nat) (prog : Nat → List MtCall)
    (hN : ∀ t, N ≤ t → prog t = []) (hok : ∀ t, ∀ call ∈ prog t, ∀ c, (call.put 0).Ok cfg.codec cfg.std c)
    (hst : ∀ t h cols, MtCall.event h cols ∈ prog t → Storable cfg.std cfg.ignoreNull [] cfg.wanted h cols)
    (hne : ∃ t, prog t ≠ []) (hcount : ((List.range N).flatMap prog).length + 1 < 2 ^ 27)
    (hruns : ∀ t u, ∀ a ∈ prog t, ∀ b ∈ prog u, -2 ^ 31 ≤ a.key.run.toInt - b.key.run.toInt ∧ a.key.run.toInt - b.key.run.toInt < 2 ^ 31)
    (maxBuf : Nat) (level : Int) (schedule : List MtChoice) (hlevel : ∀ n, .level n ∈ schedule → (n != 0) = (level != 0)) (limit : Nat)
    (hdone : ∀ t, (((diskStart limit w0 prog maxBuf level).run cfg.codec cfg.std schedule).threads t).todo = [] ∧
      (((diskStart limit w0 prog maxBuf level).run cfg.codec cfg.std schedule).threads t).phase = .idle) (name : Str) :
    let s := (diskStart limit w0 prog maxBuf level).run cfg.codec cfg.std schedule
    ∃ (order extra : List Turn) (new : List Byte), (∀ t, turnsOf t order = succeeded (s.threads t)) ∧ extra.length ≤ 1 ∧
      (∀ f ∈ extra, (f.call, .error .ioFailure) ∈ (s.threads f.thread).results) ∧
      fileAfter cfg.codec cfg.std [⟨level != 0, (order ++ extra).map fun u => u.call.put u.size⟩] = .ok (some new) ∧
      s.close.2 = some (new.take limit) ∧
      (new.length ≤ limit → extra = [] ∧ s.close.1 = .ok ()) ∧
      (limit < new.length → extra = [] → s.close.1 = .error .ioFailure) ∧
      (extra ≠ [] → order ≠ [] → s.close.1 = .error .badState) ∧ (extra ≠ [] → order = [] → s.close.1 = .ok ()) ∧
      (extra = [] → ∀ t, (s.threads t).results = (prog t).map fun call => (call, .ok ())) ∧
      ∃ m, order.length ≤ m ∧ m ≤ (order ++ extra).length ∧ ∃ r, Reader.openFiles cfg false [(name, new.take limit)] = (.ok (), r) ∧
        ∀ gs, gets cfg gs r = .ok (serve cfg gs (((order ++ extra).take m).map fun u => (name, u.call.put u.size))) ∨
          (none ∈ serve cfg gs (((order ++ extra).take m).map fun u => (name, u.call.put u.size)) ∧ ∃ e, gets cfg gs r = .error e) := by
  intro s
  cases hw
  have hi0 := DiskInv.start cfg.codec cfg.std (fun c => c = (level != 0)) ⟨some { bytes := [] }, {}⟩ { bytes := [] } limit rfl (Nat.le_refl _) (Nat.zero_le _) prog maxBuf level rfl
  obtain ⟨order, h⟩ := hi0.run schedule hlevel
  have hfine := FineDisk.run hcodec hi0 hok (fun q hq hg t r hr => by simp [diskStart] at hr) schedule hlevel
  have hcalls : ∀ t, (s.threads t).results.map (·.1) = prog t := by
    intro t
    have := h.calls t
    rw [(hdone t).1, (hdone t).2] at this
    simpa [MtPhase.current] using this
  obtain ⟨w, h1, h2⟩ := h.seq
  have ho : s.owner = none := by
    cases ho : s.owner with
    | none => rfl
    | some u =>
      rw [ho] at h2
      obtain ⟨⟨call, n, c, script, pos, out, e, -⟩, -⟩ := h2
      rw [(hdone u).2] at e
      cases e
  rw [ho] at h2
  obtain ⟨⟨q, st, a1, a2, a3, a4, a5⟩, -⟩ := h2
  have hturns : ∀ t, turnsOf t order = succeeded (s.threads t) := h.turns
  have hmem : ∀ u ∈ order, u.call ∈ prog u.thread := by
    intro u hu
    rw [← hcalls]
    apply succeeded_mem
    rw [← hturns]
    unfold turnsOf
    exact List.mem_map.2 ⟨u, List.mem_filter.2 ⟨hu, by simp⟩, rfl⟩
  have hlen : order.length ≤ ((List.range N).flatMap prog).length := by
    have hp := turns_perm N order (fun t => succeeded (s.threads t)) hturns (by
      intro t ht
      have := hcalls t
      rw [hN t ht] at this
      simp [succeeded, List.map_eq_nil_iff.1 this])
    have := hp.length_eq
    rw [List.length_map] at this
    rw [this, List.length_flatMap, List.length_flatMap]
    have le : ∀ l : List Nat, (l.map fun t => (succeeded (s.threads t)).length).sum ≤ (l.map fun t => (prog t).length).sum := by
      intro l
      induction l with
      | nil => simp
      | cons t l ih =>
        simp only [List.map_cons, List.sum_cons]
        have : (succeeded (s.threads t)).length ≤ (prog t).length := by
          rw [← hcalls t]
          unfold succeeded
          rw [List.length_map, List.length_map]
          exact List.length_filter_le _ _
        omega
    exact le _
  -- what happened to the disk
  obtain ⟨extra, w', st', x1, x2, x3, x4, x5, x6, x7, x8, x9⟩ : ∃ (extra : List Turn) (w' : Writer) (st' : OStream), extra.length ≤ 1 ∧
      (∀ f ∈ extra, (f.call, .error .ioFailure) ∈ (s.threads f.thread).results) ∧ (∀ f ∈ extra, f.compress = (level != 0)) ∧
      putEach cfg.codec cfg.std ⟨some { bytes := [] }, {}⟩ ((order ++ extra).map Turn.put) = .ok w' ∧ w'.stream = some st' ∧ Twin q st' ∧ (q.good = true → w' = w) ∧ (q.good = true ↔ extra = []) ∧ st.pos ≤ limit := by
    rcases a5 with ⟨a5, a6⟩ | ⟨a5, a6, f, w', st', a7, a8, a9, a10, a11⟩
    · refine ⟨[], w, st, Nat.zero_le _, by simp, by simp, by simpa using h1, a3, a6, fun _ => rfl, by simp [a5], ?_⟩
      rw [← a2]
      exact (twin_good_iff a6).1 a5
    · refine ⟨[f], w', st', Nat.le_refl _, ?_, ?_, a7, a8, a9, fun hx => (by rw [a5] at hx; cases hx), by simp [a5], a6⟩
      · intro g hg; simp at hg; subst hg; exact a11
      · intro g hg; simp at hg; subst hg; exact a10
  have hmem' : ∀ u ∈ order ++ extra, u.call ∈ prog u.thread := by
    intro u hu
    rcases List.mem_append.1 hu with hu | hu
    · exact hmem u hu
    · rw [← hcalls]
      exact List.mem_map.2 ⟨_, x2 u hu, rfl⟩
  have hall : extra = [] → ∀ t, ∀ r ∈ (s.threads t).results, r.2 = .ok () := fun he => hfine q a1 (x8.2 he)
  have hres : extra = [] → ∀ t, (s.threads t).results = (prog t).map fun call => (call, .ok ()) := by
    intro he t
    rw [← hcalls t, List.map_map]
    have : ∀ l : List (MtCall × Except Err Unit), (∀ r ∈ l, r.2 = .ok ()) → l = l.map ((fun call => (call, Except.ok ())) ∘ fun x => x.1) := by
      intro l
      induction l with
      | nil => intro _; rfl
      | cons x l ih =>
        intro hl
        rw [List.map_cons, ← ih (fun r hr => hl r (by simp [hr]))]
        congr 1
        obtain ⟨a, b⟩ := x
        have := hl (a, b) (by simp)
        simp only at this
        simp [this]
    exact this _ (hall he t)
  have hsome : extra = [] → order ≠ [] := by
    rintro he rfl
    obtain ⟨t, ht⟩ := hne
    apply ht
    rw [← hcalls t, ← succeeded_all _ (hall he t), ← hturns t]
    rfl
  have hputs : (order ++ extra).map (fun u => u.call.put u.size) ≠ [] := by
    intro h0
    have := List.map_eq_nil_iff.1 h0
    rw [List.append_eq_nil_iff] at this
    exact hsome this.2 this.1
  have hflags : ∀ u ∈ order ++ extra, u.compress = (level != 0) := by
    intro u hu
    rcases List.mem_append.1 hu with hu | hu
    · exact h.flags u hu
    · exact x3 u hu
  have hsession : SessionsOk cfg.codec cfg.std ([] ++ [⟨level != 0, (order ++ extra).map fun u => u.call.put u.size⟩]) := by
    refine ⟨?_, ⟨_, [], rfl, hputs⟩, ?_⟩
    · intro x hx
      rw [List.nil_append, List.mem_singleton] at hx
      subst hx
      refine ⟨?_, ?_⟩
      · intro p hp
        obtain ⟨u, hu, rfl⟩ := List.mem_map.1 hp
        exact put_ok_size _ _ _ _ _ _ (hok u.thread u.call (hmem' u hu) _)
      · intro p hp p' hp'
        obtain ⟨u, hu, rfl⟩ := List.mem_map.1 hp
        obtain ⟨v, hv, rfl⟩ := List.mem_map.1 hp'
        rw [put_key_size, put_key_size]
        exact hruns _ _ _ (hmem' u hu) _ (hmem' v hv)
    · simp [allPuts]
      omega
  have hload : Loadable cfg (allPuts ([] ++ [⟨level != 0, (order ++ extra).map fun u => u.call.put u.size⟩])) := by
    apply storable_loadable
    intro hd cols buf hm
    simp only [allPuts, List.nil_append, List.flatMap_cons, List.flatMap_nil, List.append_nil] at hm
    obtain ⟨u, hu, hu2⟩ := List.mem_map.1 hm
    apply hst u.thread hd cols
    have := hmem' u hu
    cases hc : u.call with
    | run h => rw [hc] at hu2; cases hu2
    | event h' cols' =>
      rw [hc] at hu2 this
      simp only [MtCall.put, Put.event.injEq] at hu2
      rw [← hu2.1, ← hu2.2.1]
      exact this
  obtain ⟨wx, old, new, y1, y2, y3⟩ := C65_crash_partial cfg hcodec [] ⟨level != 0, (order ++ extra).map fun u => u.call.put u.size⟩ hsession hputs hload name
  simp only [runSessions, Except.ok.injEq, Prod.mk.injEq] at y1
  obtain ⟨rfl, rfl⟩ := y1
  rw [List.nil_append] at y2
  -- the writer with one thread
  have hx4 := x4
  rw [each_all _ _ _ _ _ hflags] at hx4
  have hclose : ∃ w'', w'.close = .ok (w'', some new) := by
    unfold fileAfter runSessions Session.run Writer.openNew at y2
    simp only [bind, Except.bind] at y2
    rw [hx4] at y2
    simp only at y2
    cases hc : w'.close with
    | error e => rw [hc] at y2; cases y2
    | ok z =>
      obtain ⟨w'', f⟩ := z
      rw [hc] at y2
      simp only [runSessions, Except.ok.injEq] at y2
      exact ⟨w'', by rw [y2]⟩
  obtain ⟨w'', hclose⟩ := hclose
  have tw : Twins ⟨some q, w.ra⟩ w' q st' := ⟨rfl, x5, x6, fun hg => by rw [x7 hg]⟩
  have hmap : order ≠ [] → w.ra.map.map ≠ [] := fun hn => putEach_map _ h1 (.inr (by simpa using hn))
  obtain ⟨z1, z2, z3, z4, -⟩ := close_twins tw hclose (fun hg => hmap (hsome (x8.1 hg)))
  have hcl : s.close = ((LimWriter.close ⟨some q, w.ra⟩).1, (LimWriter.close ⟨some q, w.ra⟩).2.2) := by
    unfold MtDisk.close
    have b1 : s.ra = some w.ra := a4
    have b2 : s.stream = some q := a1
    rw [b1, b2]
  rw [a2] at z1 z2 z3
  obtain ⟨m, m1, -, m2, r, m3, m4⟩ := y3 limit (Nat.zero_le _)
  have hcr : crashed none new limit = new.take limit := by simp [crashed]
  rw [hcr] at m3
  have hbad : extra ≠ [] → q.good = false := by
    intro he
    cases hg : q.good with
    | false => rfl
    | true => exact absurd (x8.1 hg) he
  obtain ⟨l, l1, l2⟩ := putEach_adds _ h1
  have hwr : Writable indexName [w.ra.map.block] := by
    rw [l1]
    have hkeys : l.map (·.1) = order.map fun u => u.call.key := by
      rw [l2, List.map_map]
      apply List.map_congr_left
      intro u _
      exact put_key_size _ _
    refine index_writable l ?_ ?_
    · rw [← List.length_map (f := (·.1)), hkeys, List.length_map]
      omega
    · rw [hkeys]
      intro a ha b hb
      obtain ⟨u, hu, rfl⟩ := List.mem_map.1 ha
      obtain ⟨v, hv, rfl⟩ := List.mem_map.1 hb
      have := hruns _ _ _ (hmem u hu) _ (hmem v hv)
      unfold BitVec.ssubOverflow
      simp
      omega
  refine ⟨order, extra, new, hturns, x1, x2, y2, by rw [hcl, z1], ?_, ?_, ?_, ?_, hres, m, ?_, ?_, r, m3, ?_⟩
  · intro hle
    obtain ⟨b1, b2, -⟩ := z2 hle
    exact ⟨x8.1 b1, by rw [hcl]; exact b2⟩
  · intro hlt he
    rw [hcl]
    exact z3 hlt (x8.2 he)
  · intro he hn
    rw [hcl]
    exact (close_bad rfl (hbad he)).2 (hmap hn) hwr
  · intro he hn
    rw [hcl]
    refine (close_bad rfl (hbad he)).1 ?_
    subst hn
    simp only [List.map_nil, putEach, Except.ok.injEq] at h1
    rw [← h1]
  · obtain ⟨v, b1, b2⟩ := m2 order.length (by simp)
    have : v = w := by
      unfold Session.after Writer.openNew at b1
      simp only [bind, Except.bind] at b1
      rw [← List.map_take, List.take_left, ← each_all _ _ _ _ _ h.flags] at b1
      have e := b1.symm.trans h1
      exact Except.ok.inj e
    subst this
    have := b2 (by unfold reached; rw [a3]; exact x9)
    simpa [allPuts] using this
  · simpa [allPuts] using m1
  · intro gs
    have e : ((allPuts ([] ++ [(⟨level != 0, (order ++ extra).map fun u => u.call.put u.size⟩ : Session)])).take m).map (fun p => (name, p)) =
        ((order ++ extra).take m).map fun u => (name, u.call.put u.size) := by
      simp only [allPuts, List.nil_append, List.flatMap_cons, List.flatMap_nil, List.append_nil]
      rw [← List.map_take, List.map_map]
      rfl
    have := m4 gs
    rw [e] at this
    rcases this with h | ⟨h, e, he, -⟩
    · exact .inl h
    · exact .inr ⟨h, e, he⟩

/-- **C115**, no deadlock: exceptions release the mutex. From every state that can be reached, all threads can come to the end of their calls. -/
theorem C115_completes (codec : Codec) (std : Std Pid) (w0 : Writer) (o : OStream) (hw : w0.stream = some o) (hin : o.pos ≤ o.bytes.length) (limit : Nat) (hl : o.bytes.length ≤ limit)
    (N : Nat) (prog : Nat → List MtCall) (hN : ∀ t, N ≤ t → prog t = []) (maxBuf : Nat) (level : Int) (schedule : List MtChoice) :
    ∃ more : List Nat, ∀ t, (((diskStart limit w0 prog maxBuf level).run codec std (schedule ++ more.map .thread)).threads t).todo = [] ∧
      (((diskStart limit w0 prog maxBuf level).run codec std (schedule ++ more.map .thread)).threads t).phase = .idle := by
  have hi0 := DiskInv.start codec std (fun _ => True) w0 o limit hw hin hl prog maxBuf level trivial
  have free : ∃ more : List Nat, ((diskStart limit w0 prog maxBuf level).run codec std (schedule ++ more.map .thread)).owner = none := by
    obtain ⟨order, h⟩ := hi0.run schedule (fun _ _ => trivial)
    obtain ⟨w, -, h2⟩ := h.seq
    cases ho : ((diskStart limit w0 prog maxBuf level).run codec std schedule).owner with
    | none => exact ⟨[], by rw [List.map_nil, List.append_nil]; exact ho⟩
    | some u =>
      rw [ho] at h2
      obtain ⟨⟨call, n, c, script, pos, out, e, -⟩, -⟩ := h2
      obtain ⟨sched, a1, -⟩ := disk_finish_inside codec std u call n c script _ pos out ho e
      exact ⟨sched, by rw [steps_run]; exact a1⟩
  obtain ⟨more, hf⟩ := free
  obtain ⟨order, h⟩ := hi0.run (schedule ++ more.map .thread) (fun _ _ => trivial)
  obtain ⟨w, -, h2⟩ := h.seq
  rw [hf] at h2
  obtain ⟨sched, a1, a2, a3⟩ := disk_finish_all codec std N _ hf h2.2
  refine ⟨more ++ sched, ?_⟩
  rw [List.map_append, ← List.append_assoc]
  intro t
  obtain ⟨order', h'⟩ := hi0.run (schedule ++ more.map .thread ++ sched.map .thread) (fun _ _ => trivial)
  rw [steps_run codec std _ (schedule ++ more.map MtChoice.thread) sched] at h' ⊢
  by_cases ht : t < N
  · exact ⟨(a2 t ht).2, (a2 t ht).1⟩
  · have hp := hN t (by omega)
    have hc := h'.calls t
    rw [hp] at hc
    simp only [List.append_eq_nil_iff] at hc
    refine ⟨hc.2, ?_⟩
    cases hph : ((((diskStart limit w0 prog maxBuf level).run codec std (schedule ++ more.map .thread)).steps codec std sched).threads t).phase with
    | idle => rfl
    | _ => rw [hph] at hc; simp [MtPhase.current] at hc

/-! ## Cases -/

/-- The hypotheses of `C115_file` are met by two threads, whatever they have done before, and whatever room there is. -/
example (schedule : List Nat) (limit : Nat) : ∃ more : List Nat,
    let s := (diskStart limit ⟨some { bytes := [] }, {}⟩ sampleProg 0 6).run sampleCfg.codec sampleCfg.std ((schedule ++ more).map .thread)
    ∃ (order extra : List Turn) (new : List Byte), (∀ t, turnsOf t order = succeeded (s.threads t)) ∧ s.close.2 = some (new.take limit) ∧
      (limit < new.length → extra = [] → s.close.1 = .error .ioFailure) ∧ (extra ≠ [] → order ≠ [] → s.close.1 = .error .badState) ∧
      ∃ m, order.length ≤ m ∧ ∃ r, Reader.openFiles sampleCfg false [(str "f", new.take limit)] = (.ok (), r) := by
  have hN : ∀ t, 2 ≤ t → sampleProg t = [] := by
    intro t ht
    match t with
    | 0 => omega
    | 1 => omega
    | n + 2 => rfl
  have h3 : RunHeaderOk (runHeaderOf 3) := ⟨by decide, by decide, by decide, by decide, sampleParams_ok⟩
  obtain ⟨more, hd⟩ := C115_completes sampleCfg.codec sampleCfg.std ⟨some { bytes := [] }, {}⟩ _ rfl (Nat.le_refl _) limit (Nat.zero_le _) 2 sampleProg hN 0 6 (schedule.map .thread)
  refine ⟨more, ?_⟩
  rw [List.map_append]
  obtain ⟨order, extra, new, h1, -, -, -, h4, -, h5, h5', -, -, m, h6, -, r, h7, -⟩ := C115_file sampleCfg idCodec_lossless _ rfl 2 sampleProg hN (by
      intro t call hc c
      rcases sampleProg_cases t call hc with rfl | rfl | rfl
      · exact ⟨h3, jobOk_id _ _ _ _ (by decide +kernel) (by decide +kernel)⟩
      · exact ⟨jobOk_id _ _ _ _ (by decide +kernel) (by decide +kernel), jobOk_id _ _ _ _ (by decide +kernel) (by decide +kernel)⟩
      · exact ⟨jobOk_id _ _ _ _ (by decide +kernel) (by decide +kernel), jobOk_id _ _ _ _ (by decide +kernel) (by decide +kernel)⟩) (by
      intro t h cols hc
      rcases sampleProg_cases t _ hc with he | he | he
      · cases he
      · cases he; decide +kernel
      · cases he; decide +kernel) ⟨0, by simp [sampleProg]⟩ (by simp [List.range_succ, sampleProg]) (by
      intro t u a ha b hb
      rcases sampleProg_cases t _ ha with rfl | rfl | rfl <;> rcases sampleProg_cases u _ hb with rfl | rfl | rfl <;> decide +kernel) 0 6 (schedule.map .thread ++ more.map .thread) (by
      intro n hn
      simp at hn) limit hd (str "f")
  exact ⟨order, extra, new, h1, h4, h5, h5', m, h6, r, h7⟩

/-- What the calls of two threads and `close` throw, and how long the file is, for a given room on the disk. -/
def fullRace (limit : Nat) (schedule : List MtChoice) : List (Option Err) × List (Option Err) × Option Err × Nat :=
  let s := (diskStart limit ⟨some { bytes := [] }, {}⟩ (fun t => if t < 2 then [.event { run := 1, evt := BitVec.ofNat 32 t } [], .event { run := 1, evt := BitVec.ofNat 32 (t + 2) } []] else []) 64 0).run
    idCodec ieee schedule
  ((s.threads 0).results.map fun r => thrown r.2, (s.threads 1).results.map fun r => thrown r.2, thrown s.close.1, (s.close.2.getD []).length)

/-- Two threads that run in step. On a disk with enough room nothing is thrown. With less room, the second call that gets the mutex, the one of thread 0, throws an `io_failure`, the ones after it `bad_state`, and so does
`close`. If only the index does not fit, just `close` throws. -/
example : fullRace 2000 ([.thread 1] ++ (List.replicate 60 [.thread 0, .thread 1]).flatten) = ([none, none], [none, none], none, 964) ∧
    fullRace 200 ([.thread 1] ++ (List.replicate 60 [.thread 0, .thread 1]).flatten) = ([some .ioFailure, some .badState], [none, some .badState], some .badState, 200) ∧
    fullRace 960 ([.thread 1] ++ (List.replicate 60 [.thread 0, .thread 1]).flatten) = ([none, none], [none, none], some .ioFailure, 960) := by decide +kernel

end Props
