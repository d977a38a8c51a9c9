import Verif.Lcio.MtLemmas2
import Verif.Props.Direct
/-
Properties of writing with several threads: C35.
-/
namespace Props
open Sio Spec Lcio

/-- **C35**, the order. Any number of threads write run headers and events with one writer, in any interleaving of their steps (with changes of the compression level at
any time). Whenever nobody holds the mutex, there is an order of the calls that returned without exception, in which the calls of each thread are in the order in which
the thread made them, such that the file and the event map are those of a writer that is used by one thread, which makes these calls in this order. The calls that a thread has finished, the one
it is in, and those it will make, are its program. -/
theorem C35_sequential (codec : Codec) (std : Std Pid) (w0 : Writer) (hw : w0.stream.isSome = true) (prog : Nat → List MtCall) (maxBuf : Nat) (level : Int)
    (schedule : List MtChoice) :
    let s := (mtStart w0 prog maxBuf level).run codec std schedule
    (∀ t, ∃ rest, (s.threads t).results.map (·.1) ++ rest = prog t) ∧
    (s.owner = none → ∃ (order : List Turn) (w : Writer), (∀ t, turnsOf t order = succeeded (s.threads t)) ∧
      putEach codec std w0 (order.map Turn.put) = .ok w ∧ s.stream = w.stream ∧ s.ra = some w.ra) := by
  intro s
  obtain ⟨order, h⟩ := (MtInv.start codec std (fun _ => True) w0 hw prog maxBuf level trivial).run schedule (fun _ _ => trivial)
  refine ⟨fun t => ⟨_, by rw [← List.append_assoc]; exact h.calls t⟩, fun ho => ?_⟩
  obtain ⟨w, h1, -, h2⟩ := h.seq
  have ho' : ((mtStart w0 prog maxBuf level).run codec std schedule).owner = none := ho
  rw [ho'] at h2
  refine ⟨order, w, fun t => ?_, h1, h2.1, h2.2.1⟩
  have := h.turns t
  rw [h2.2.2 t, List.append_nil] at this
  exact this

theorem done_owner {codec : Codec} {std : Std Pid} {A : Bool → Prop} {w0 : Writer} {prog : Nat → List MtCall} {s : MtState} {order : List Turn} (h : MtInv codec std A w0 prog s order)
    (hd : Done s) : s.owner = none := by
  obtain ⟨w, h1, -, h2⟩ := h.seq
  cases ho : s.owner with
  | none => rfl
  | some u =>
    rw [ho] at h2
    obtain ⟨⟨call, n, c, script, pos, out, e, -⟩, -⟩ := h2
    rw [(hd u).2] at e
    cases e

/-- **C35**, the bytes. If all threads are done, all calls returned normally, and the compression level was not changed between being zero and not, then after `close` the file has the bytes that a
writer used by one thread makes in one session, and everything proved about such files (C27 to C34) applies. -/
theorem C35_as_session (codec : Codec) (std : Std Pid) (w0 : Writer) (hw : Writer.openNew {} = .ok w0) (prog : Nat → List MtCall) (maxBuf : Nat) (level : Int)
    (schedule : List MtChoice) (hlevel : ∀ n, .level n ∈ schedule → (n != 0) = (level != 0))
    (hdone : Done ((mtStart w0 prog maxBuf level).run codec std schedule)) :
    let s := (mtStart w0 prog maxBuf level).run codec std schedule
    ∃ order : List Turn, (∀ t, turnsOf t order = succeeded (s.threads t)) ∧
      s.close = fileAfter codec std [⟨level != 0, order.map fun u => u.call.put u.size⟩] := by
  intro s
  cases hw
  obtain ⟨order, h⟩ := (MtInv.start codec std (fun c => c = (level != 0)) ⟨some { bytes := [] }, {}⟩ rfl prog maxBuf level rfl).run schedule hlevel
  have ho := done_owner h hdone
  obtain ⟨w, h1, -, h2⟩ := h.seq
  rw [ho] at h2
  refine ⟨order, fun t => ?_, ?_⟩
  · have := h.turns t
    rw [h2.2.2 t, List.append_nil] at this
    exact this
  · have key : ∀ (l : List Turn) (v : Writer), (∀ u ∈ l, u.compress = (level != 0)) →
        putEach codec std v (l.map Turn.put) = putAll codec std (level != 0) v (l.map fun u => u.call.put u.size) := by
      intro l
      induction l with
      | nil => intro v _; rfl
      | cons u l ih =>
        intro v hv
        simp only [List.map_cons, putEach, putAll, Turn.put, hv u (by simp)]
        cases hc : (u.call.put u.size).call codec std (level != 0) v with
        | mk r v' =>
          cases r with
          | error e => rfl
          | ok _ => exact ih v' (fun u hu => hv u (by simp [hu]))
    rw [key _ _ h.flags] at h1
    unfold fileAfter runSessions Session.run Writer.openNew
    simp only [bind, Except.bind]
    rw [h1]
    simp only
    show s.close = _
    unfold MtState.close
    have h3 : s.ra = some w.ra := h2.2.1
    have h4 : s.stream = w.stream := h2.1
    rw [h3, h4]
    simp only
    cases Writer.close ⟨w.stream, w.ra⟩ with
    | error e => rfl
    | ok x => obtain ⟨w', file⟩ := x; rfl

/-- **C35**, what is in the file. Any number of threads write run headers and events with one writer to a new file, in any interleaving of their steps (with changes of the
compression level at any time), until they are done, and the writer is closed. Everything can be written (with and without compression). Then
* no call throws;
* there is an order of all calls, each one once, in which the calls of each thread are in the order in which the thread made them, such that a reader gets just that:
  any sequence of calls of `readNextEvent` and `readNextRunHeader` returns the next event (run header) in this order, and null if there is none;
* at the position in the event map for the numbers of an event or run header the reader finds it (or another one with the same numbers) and then all that comes after
  it in this order. Nothing else is in the map. -/
theorem C35_file (cfg : RConfig) (hcodec : Lossless cfg.codec) (w0 : Writer) (hw : Writer.openNew {} = .ok w0) (N : Nat) (prog : Nat → List MtCall)
    (hN : ∀ t, N ≤ t → prog t = []) (hok : ∀ t, ∀ call ∈ prog t, ∀ c, (call.put 0).Ok cfg.codec cfg.std c)
    (hst : ∀ t h cols, MtCall.event h cols ∈ prog t → Storable cfg.std cfg.ignoreNull [] cfg.wanted h cols)
    (hne : ∃ t, prog t ≠ []) (hcount : ((List.range N).flatMap prog).length < 2 ^ 27)
    (hruns : ∀ t u, ∀ a ∈ prog t, ∀ b ∈ prog u, -2 ^ 31 ≤ a.key.run.toInt - b.key.run.toInt ∧ a.key.run.toInt - b.key.run.toInt < 2 ^ 31)
    (hnum : ∀ t h cols, MtCall.event h cols ∈ prog t → 0 ≤ h.evt.toInt)
    (maxBuf : Nat) (level : Int) (schedule : List MtChoice) (hdone : Done ((mtStart w0 prog maxBuf level).run cfg.codec cfg.std schedule)) (name : Str) :
    let s := (mtStart w0 prog maxBuf level).run cfg.codec cfg.std schedule
    (∀ t, (s.threads t).results = (prog t).map fun call => (call, .ok ())) ∧
    ∃ order : List Turn, (∀ t, turnsOf t order = prog t) ∧ (order.map (·.call)).Perm ((List.range N).flatMap prog) ∧
      ∃ bytes r m, s.close = .ok (some bytes) ∧ s.ra = some m ∧ Reader.openFiles cfg false [(name, bytes)] = (.ok (), r) ∧
        (∀ gs, gets cfg gs r = .ok (serve cfg gs (order.map fun u => (name, u.call.put u.size)))) ∧
        (∀ k ∈ order.map (·.call.key), ∃ pre u post, order = pre ++ u :: post ∧ u.call.key = k ∧
          ∀ gs, gets cfg gs (seeked r (m.map.getPosition k)) = .ok (serve cfg gs ((u :: post).map fun u => (name, u.call.put u.size)))) ∧
        (∀ k : RunEvent, -1 ≤ k.evt.toInt → k ∉ order.map (·.call.key) → m.map.getPosition k = npos) := by
  intro s
  cases hw
  have hi0 := MtInv.start cfg.codec cfg.std (fun _ => True) ⟨some { bytes := [] }, {}⟩ rfl prog maxBuf level trivial
  obtain ⟨order, h⟩ := hi0.run schedule (fun _ _ => trivial)
  have hall := AllOk.run hcodec hi0 hok (fun t r hr => by simp [mtStart] at hr) schedule
  have ho := done_owner h hdone
  obtain ⟨w, h1, -, h2⟩ := h.seq
  rw [ho] at h2
  have hcalls : ∀ t, (s.threads t).results.map (·.1) = prog t := by
    intro t
    have := h.calls t
    rw [(hdone t).1, (hdone t).2] at this
    simpa [MtPhase.current] using this
  have hturns : ∀ t, turnsOf t order = prog t := by
    intro t
    have := h.turns t
    rw [h2.2.2 t, List.append_nil, succeeded_all _ (hall t)] at this
    rw [this]; exact hcalls t
  refine ⟨fun t => ?_, order, hturns, turns_perm N order prog hturns hN, ?_⟩
  · rw [← hcalls t, List.map_map]
    have : ∀ l : List (MtCall × Except Err Unit), (∀ r ∈ l, r.2 = .ok ()) → l = l.map ((fun call => (call, Except.ok ())) ∘ fun x => x.1) := by
      intro l
      induction l with
      | nil => intro _; rfl
      | cons x l ih =>
        intro hl
        rw [List.map_cons, ← ih (fun r hr => hl r (by simp [hr]))]
        congr 1
        obtain ⟨a, b⟩ := x
        have := hl (a, b) (by simp)
        simp only at this
        simp [this]
    exact this _ (hall t)
  have hmem : ∀ u ∈ order, u.call ∈ prog u.thread := by
    intro u hu
    rw [← hturns]
    unfold turnsOf
    exact List.mem_map.2 ⟨u, List.mem_filter.2 ⟨hu, by simp⟩, rfl⟩
  have hputs : (order.map Turn.put).map (·.2) = order.map fun u => u.call.put u.size := by rw [List.map_map]; rfl
  obtain ⟨gs, g1, g2⟩ := over_putEach cfg.codec hcodec cfg.std (order.map Turn.put) (by
    intro p hp
    obtain ⟨u, hu, rfl⟩ := List.mem_map.1 hp
    exact put_ok_size _ _ _ _ _ _ (hok u.thread u.call (hmem u hu) u.compress)) [] [] {}
  have hover : ({ bytes := [] } : OStream) = over [] [] := rfl
  rw [hover, g2] at h1
  rw [hputs] at g1 h1
  simp only [Except.ok.injEq] at h1
  have hlen : order.length < 2 ^ 27 := by
    have := (turns_perm N order prog hturns hN).length_eq
    rw [List.length_map] at this
    omega
  have hone : order.map (fun u => u.call.put u.size) ≠ [] := by
    obtain ⟨t, ht⟩ := hne
    intro h0
    apply ht
    rw [← hturns t, List.map_eq_nil_iff.1 h0]
    rfl
  obtain ⟨c, fr, w', c1, c2, c3, c4, c5, -⟩ := close_eq cfg.codec cfg.std [] [] {} _ gs g1 hone (by simpa using hlen) (runsClose_of _ (by
    intro p hp q hq
    obtain ⟨u, hu, rfl⟩ := List.mem_map.1 hp
    obtain ⟨v, hv, rfl⟩ := List.mem_map.1 hq
    rw [put_key_size, put_key_size]
    exact hruns _ _ _ (hmem u hu) _ (hmem v hv))) (by simp) none rfl rfl
  have hra : s.ra = some w.ra := h2.2.1
  have hstr : s.stream = w.stream := h2.1
  have hclose : s.close = .ok (some (fileOf (recsOf [c]) ++ fr.wire)) := by
    unfold MtState.close
    rw [hra, hstr, ← h1]
    simp only
    rw [c5]
    simp [recsOf]
  have hcontent : Content cfg.codec cfg.std [c] _ _ (some (fileOf (recsOf [c]) ++ fr.wire)) := .some (.snoc [] none none c .nil c3) _ rfl fr c4
  have hsz := history_size cfg.codec cfg.std [c] _ _ (.snoc [] none none c .nil c3) (by simp [c1, hlen])
  have hload : ∀ u ∈ order, ∀ n file, delivery cfg file (u.call.put n) ≠ none := by
    intro u hu n file
    have := storable_loadable cfg [u.call.put n] (by
      intro hd cols buf hm
      simp only [List.mem_singleton] at hm
      apply hst u.thread hd cols
      cases hc : u.call with
      | run h => rw [hc] at hm; cases hm
      | event h' cols' =>
        rw [hc] at hm
        simp only [MtCall.put, Put.event.injEq] at hm
        rw [hm.1, hm.2.1, ← hc]
        exact hmem u hu)
    exact this _ (by simp) file
  obtain ⟨rs, r1, r2⟩ := content_layout hcontent
  simp only [List.flatMap_cons, List.flatMap_nil, List.append_nil, c1] at r2
  obtain ⟨r, e1, e2⟩ := openFiles_at cfg (name, fileOf (recsOf [c]) ++ fr.wire) [] (name, order.map fun u => u.call.put u.size) []
    (Lcio.All2.cons ⟨rfl, rs, r1, r2⟩ (Lcio.All2.nil _))
  have e1' := e1
  unfold Reader.openFiles Reader.openFile at e1'
  simp only [Bool.false_eq_true, if_false, Prod.mk.injEq, true_and] at e1'
  refine ⟨_, r, w.ra, hclose, hra, e1, ?_, ?_, ?_⟩
  · intro gets'
    rw [gets_serve cfg gets' r _ _ _ e2]
    · simp [following, items, List.map_map, Function.comp_def]
    · intro x hx
      simp only [following, items, List.flatMap_cons, List.flatMap_nil, List.append_nil, List.map_map, List.mem_map] at hx
      obtain ⟨u, hu, rfl⟩ := hx
      exact hload u hu _ _
  all_goals
    have hmap : w.ra.map = ({} : RunEventMap).addAll ((keysFrom 0 (order.map fun u => u.call.put u.size) gs).map fun e => (e.1, BitVec.ofNat 64 e.2)) := by
      rw [← h1, addKeys_eq]; rfl
    have hinv := addAll_inv ((keysFrom 0 (order.map fun u => u.call.put u.size) gs).map fun e => (e.1, BitVec.ofNat 64 e.2)) {} [] MapInv.empty
    rw [List.nil_append, ← hmap] at hinv
    have hkeys : ((keysFrom 0 (order.map fun u => u.call.put u.size) gs).map fun e => (e.1, BitVec.ofNat 64 e.2)).map (·.1) = order.map (·.call.key) := by
      have := keysFrom_fst cfg.codec cfg.std _ _ g1 0
      rw [List.map_map] at this ⊢
      simp only [Function.comp_def, put_key_size] at this ⊢
      exact this
    have hreg1 : ∀ k ∈ order.map (·.call.key), -1 ≤ k.evt.toInt := by
      intro k hk
      obtain ⟨u, hu, rfl⟩ := List.mem_map.1 hk
      have := hmem u hu
      cases hc : u.call with
      | run h => simp only [MtCall.key]; decide
      | event hd cols =>
        rw [hc] at this
        have := hnum _ _ _ this
        simp only [MtCall.key]; omega
    have hreg : ∀ x ∈ (keysFrom 0 (order.map fun u => u.call.put u.size) gs).map fun e => (e.1, BitVec.ofNat 64 e.2), -1 ≤ x.1.evt.toInt := by
      intro x hx
      exact hreg1 _ (by rw [← hkeys]; exact List.mem_map.2 ⟨x, hx, rfl⟩)
  · intro k hk
    rcases hinv.lookup hreg k (hreg1 k hk) with ⟨hx, -⟩ | ⟨pos, hx, hpos⟩
    · exact absurd (by rw [hkeys]; exact hk) hx
    · rw [hpos]
      obtain ⟨y, hy, hy2⟩ := List.mem_map.1 hx
      simp only [Prod.mk.injEq] at hy2
      obtain ⟨hy2, rfl⟩ := hy2
      obtain ⟨ps1, q, ps2, gs1, g, gs2, d1, d2, d3, d4, d5⟩ := keysFrom_split _ _ g1 0 y.1 y.2 hy
      obtain ⟨l1, l2, rfl, m1, m2⟩ := List.map_eq_append_iff.1 d1
      obtain ⟨u, l2, rfl, m3, m4⟩ := List.map_eq_cons_iff.1 m2
      refine ⟨l1, u, l2, rfl, ?_, ?_⟩
      · rw [← hy2, ← d4, ← m3, put_key_size]
      · intro gets'
        have hlay : Layout cfg.codec cfg.std (q :: ps2) ((g :: gs2).flatten ++ [c.ix, c.acc, fr]) := by
          have o1 := index_other c3.ix
          have o2 := access_other c3.acc
          have o3 := access_other c4
          have := layout_groups d3 (.other c.ix _ _ c3.ix.ok o1.1 o1.2.1 o1.2.2 (.other c.acc _ _ c3.acc.ok o2.1 o2.2.1 o2.2.2 (.other fr [] [] c4.ok o3.1 o3.2.1 o3.2.2 .nil)))
          simpa using this
        have hbytes : fileOf (recsOf [c]) ++ fr.wire = fileOf gs1.flatten ++ fileOf ((g :: gs2).flatten ++ [c.ix, c.acc, fr]) := by
          simp [recsOf, Chunk.recs, c2, d2, fileOf_append, fileOf_cons, fileOf_nil]
        have hsz2 : (fileOf gs1.flatten).length < 2 ^ 61 := by
          refine Nat.lt_of_le_of_lt ?_ hsz
          unfold Lcio.sizeOf
          simp [recsOf, Chunk.recs, c2, d2, fileOf_append]
        have hat : At cfg (seeked r (BitVec.ofNat 64 y.2)) name (q :: ps2) [] := by
          rw [← e1']
          refine ⟨⟨fileOf gs1.flatten, _, ?_, hlay⟩, rfl, Lcio.All2.nil _⟩
          unfold seeked
          simp only
          have hin : ({ bytes := fileOf (recsOf [c]) ++ fr.wire } : IStream) = ready (fileOf (recsOf [c]) ++ fr.wire) 0 := rfl
          rw [hin, seekg_ready, BitVec.toNat_ofNat, d5, Nat.zero_add, Nat.mod_eq_of_lt (by omega), hbytes]
        rw [gets_serve cfg gets' _ _ _ _ hat]
        · simp [following, items, ← m3, ← m4, List.map_map, Function.comp_def]
        · intro x hx
          simp only [following, items, List.flatMap_cons, List.flatMap_nil, List.append_nil, ← m3, ← m4, ← List.map_cons (f := fun u : Turn => u.call.put u.size), List.map_map, List.mem_map] at hx
          obtain ⟨v, hv, rfl⟩ := hx
          exact hload v (List.mem_append_right _ hv) _ _
  · intro k hk hx
    rcases hinv.lookup hreg k hk with ⟨-, h⟩ | ⟨pos, h, -⟩
    · exact h
    · exact absurd (by rw [← hkeys]; exact List.mem_map.2 ⟨_, h, rfl⟩) hx

/-- **C35**, no deadlock. From every state that can be reached, all threads can come to the end of their calls. -/
theorem C35_completes (codec : Codec) (std : Std Pid) (w0 : Writer) (hw : w0.stream.isSome = true) (N : Nat) (prog : Nat → List MtCall) (hN : ∀ t, N ≤ t → prog t = [])
    (maxBuf : Nat) (level : Int) (schedule : List MtChoice) :
    ∃ more, Done ((mtStart w0 prog maxBuf level).run codec std (schedule ++ more)) := by
  have hi0 := MtInv.start codec std (fun _ => True) w0 hw prog maxBuf level trivial
  have free : ∃ more, ((mtStart w0 prog maxBuf level).run codec std (schedule ++ more)).owner = none := by
    obtain ⟨order, h⟩ := hi0.run schedule (fun _ _ => trivial)
    obtain ⟨w, -, -, h2⟩ := h.seq
    cases ho : ((mtStart w0 prog maxBuf level).run codec std schedule).owner with
    | none => exact ⟨[], by rw [List.append_nil]; exact ho⟩
    | some u =>
      rw [ho] at h2
      obtain ⟨⟨call, n, c, script, pos, out, e, -⟩, -⟩ := h2
      obtain ⟨sched, a1, -⟩ := finish_inside codec std u call n c script _ pos out ho e
      exact ⟨sched, by rw [run_append]; exact a1⟩
  obtain ⟨more, hf⟩ := free
  obtain ⟨order, h⟩ := hi0.run (schedule ++ more) (fun _ _ => trivial)
  obtain ⟨w, -, -, h2⟩ := h.seq
  rw [hf] at h2
  obtain ⟨sched, a1, a2, a3⟩ := finish_all codec std N _ hf h2.2.2
  refine ⟨more ++ sched, ?_⟩
  rw [← List.append_assoc]
  intro t
  obtain ⟨order', h'⟩ := hi0.run (schedule ++ more ++ sched) (fun _ _ => trivial)
  rw [run_append codec std _ (schedule ++ more) sched] at h' ⊢
  by_cases ht : t < N
  · exact ⟨(a2 t ht).2, (a2 t ht).1⟩
  · have hp := hN t (by omega)
    have hc := h'.calls t
    rw [hp] at hc
    simp only [List.append_eq_nil_iff] at hc
    refine ⟨hc.2, ?_⟩
    cases hph : ((((mtStart w0 prog maxBuf level).run codec std (schedule ++ more)).run codec std sched).threads t).phase with
    | idle => rfl
    | _ => rw [hph] at hc; simp [MtPhase.current] at hc

/-! ## Cases -/

/-- Two threads. -/
def sampleProg : Nat → List MtCall
  | 0 => [.run (runHeaderOf 3), .event { run := 3, evt := 9 } tinyCols]
  | 1 => [.event { run := 4, evt := 0 } []]
  | _ => []

theorem sampleProg_cases (t : Nat) (call : MtCall) (h : call ∈ sampleProg t) :
    call = .run (runHeaderOf 3) ∨ call = .event { run := 3, evt := 9 } tinyCols ∨ call = .event { run := 4, evt := 0 } [] := by
  match t with
  | 0 => simp [sampleProg] at h; tauto
  | 1 => simp [sampleProg] at h; tauto
  | n + 2 => simp [sampleProg] at h

/-- The hypotheses of `C35_file` are met by these threads, whatever they have done before. -/
example (schedule : List MtChoice) : ∃ more w0, Writer.openNew {} = .ok w0 ∧
    let s := (mtStart w0 sampleProg 0 6).run sampleCfg.codec sampleCfg.std (schedule ++ more)
    ∃ order : List Turn, (∀ t, turnsOf t order = sampleProg t) ∧ order.length = 3 ∧ ∃ bytes r, s.close = .ok (some bytes) ∧
      Reader.openFiles sampleCfg false [(str "f", bytes)] = (.ok (), r) ∧
      ∀ gs, gets sampleCfg gs r = .ok (serve sampleCfg gs (order.map fun u => (str "f", u.call.put u.size))) := by
  have hN : ∀ t, 2 ≤ t → sampleProg t = [] := by
    intro t ht
    match t with
    | 0 => omega
    | 1 => omega
    | n + 2 => rfl
  have h3 : RunHeaderOk (runHeaderOf 3) := ⟨by decide, by decide, by decide, by decide, sampleParams_ok⟩
  obtain ⟨more, hd⟩ := C35_completes sampleCfg.codec sampleCfg.std ⟨some { bytes := [] }, {}⟩ rfl 2 sampleProg hN 0 6 schedule
  refine ⟨more, _, rfl, ?_⟩
  obtain ⟨-, order, h1, h2, bytes, r, m, h4, -, h5, h6, -⟩ := C35_file sampleCfg idCodec_lossless _ rfl 2 sampleProg hN (by
      intro t call hc c
      rcases sampleProg_cases t call hc with rfl | rfl | rfl
      · exact ⟨h3, jobOk_id _ _ _ _ (by decide +kernel) (by decide +kernel)⟩
      · exact ⟨jobOk_id _ _ _ _ (by decide +kernel) (by decide +kernel), jobOk_id _ _ _ _ (by decide +kernel) (by decide +kernel)⟩
      · exact ⟨jobOk_id _ _ _ _ (by decide +kernel) (by decide +kernel), jobOk_id _ _ _ _ (by decide +kernel) (by decide +kernel)⟩) (by
      intro t h cols hc
      rcases sampleProg_cases t _ hc with he | he | he
      · cases he
      · cases he; decide +kernel
      · cases he; decide +kernel) ⟨0, by simp [sampleProg]⟩ (by simp [List.range_succ, sampleProg]) (by
      intro t u a ha b hb
      rcases sampleProg_cases t _ ha with rfl | rfl | rfl <;> rcases sampleProg_cases u _ hb with rfl | rfl | rfl <;> decide +kernel) (by
      intro t h cols hc
      rcases sampleProg_cases t _ hc with he | he | he
      · cases he
      · cases he; decide
      · cases he; decide) 0 6 (schedule ++ more) hd (str "f")
  refine ⟨order, h1, ?_, bytes, r, h4, h5, h6⟩
  have := h2.length_eq
  simpa [List.range_succ, sampleProg] using this

/-- The numbers in the file that some threads write in a given interleaving, and the results of the first two threads. -/
def raceOf (prog : Nat → List MtCall) (schedule : List MtChoice) : Except Err (List (Int × Int)) × List Bool × List Bool :=
  let s := (mtStart ⟨some { bytes := [] }, {}⟩ prog 64 0).run idCodec ieee schedule
  (match s.close with
    | .ok (some bytes) => match allEvents sampleCfg 9 (Reader.openFiles sampleCfg false [(str "f", bytes)]).2 with
      | .ok es => .ok (es.map fun e => (e.1.run.toInt, e.1.evt.toInt))
      | .error e => .error e
    | .ok none => .ok []
    | .error e => .error e, (s.threads 0).results.map (·.2.isOk), (s.threads 1).results.map (·.2.isOk))

/-- Two threads that run in step: the first one to take the mutex is the first one in the file. -/
example : raceOf (fun t => if t < 2 then [.event { run := 1, evt := BitVec.ofNat 32 t } []] else [])
    ([.thread 1] ++ (List.replicate 24 [.thread 0, .thread 1]).flatten) = (.ok [(1, 1), (1, 0)], [true], [true]) := by decide +kernel

/-- Where threads are that use a closed writer. -/
def Shut (codec : Codec) (std : Std Pid) (th : MtThread) : Prop :=
  (match th.phase with
  | .waiting _ _ _ script => ∃ rest, script = .check :: rest
  | .inside _ _ _ script _ out => (∃ rest, script = .check :: rest) ∨ (script = [] ∧ out = .error .ioException)
  | .encoded call n recs => encodeAll n (call.jobs std) = .ok recs
  | _ => True) ∧
  ∀ r ∈ th.results, r.2.isOk = false ∧ ((∀ c, (r.1.put 0).Ok codec std c) → r.2 = .error .ioException)

/-- **C35**, closed writers. If the file is not open, or was closed, then every call of every thread throws, the ones with contents that could be written an `IOException`,
and neither the writer nor its event map are touched, for any schedule. -/
theorem C35_closed (codec : Codec) (hcodec : Lossless codec) (std : Std Pid) (ra : Option RaMgr) (prog : Nat → List MtCall) (maxBuf : Nat) (level : Int) (schedule : List MtChoice) :
    let s := MtState.run codec std { stream := none, ra := ra, maxBuf := maxBuf, level := level, threads := fun t => { todo := prog t } } schedule
    s.stream = none ∧ s.ra = ra ∧ s.maxBuf = maxBuf ∧
    ∀ t, ∀ r ∈ (s.threads t).results, r.2.isOk = false ∧ ((∀ c, (r.1.put 0).Ok codec std c) → r.2 = .error .ioException) := by
  have main : ∀ (schedule : List MtChoice) (s : MtState), s.stream = none → s.ra = ra → s.maxBuf = maxBuf → (∀ t, Shut codec std (s.threads t)) →
      (s.run codec std schedule).stream = none ∧ (s.run codec std schedule).ra = ra ∧ (s.run codec std schedule).maxBuf = maxBuf ∧
      ∀ t, Shut codec std ((s.run codec std schedule).threads t) := by
    intro schedule
    induction schedule with
    | nil => exact fun s h1 h2 h3 h4 => ⟨h1, h2, h3, h4⟩
    | cons x schedule ih =>
      intro s h1 h2 h3 h4
      have e : s.run codec std (x :: schedule) = (s.next codec std x).run codec std schedule := rfl
      rw [e]
      have set : ∀ t th, Shut codec std th → ∀ u, Shut codec std ((s.setThread t th).threads u) := by
        intro t th hth u
        by_cases hu : u = t
        · subst hu; rw [setThread_self]; exact hth
        · rw [setThread_ne _ _ _ _ hu]; exact h4 u
      have fail : ∀ t call e ph, ((∀ c, (call.put 0).Ok codec std c) → e = .ioException) → ph = MtPhase.idle →
          Shut codec std { s.threads t with phase := ph, results := (s.threads t).results ++ [(call, .error e)] } := by
        intro t call e ph he hph
        subst hph
        refine ⟨trivial, ?_⟩
        intro r hr
        rcases List.mem_append.1 hr with hr | hr
        · exact (h4 t).2 r hr
        · rw [List.mem_singleton.1 hr]
          exact ⟨rfl, fun hc => by rw [he hc]⟩
      cases x with
      | level n => exact ih _ h1 h2 h3 h4
      | thread t =>
        have ht := h4 t
        show _ ∧ _
        simp only [MtState.next, MtState.step]
        cases hp : (s.threads t).phase with
        | idle =>
          simp only
          cases htodo : (s.threads t).todo with
          | nil => exact ih _ h1 h2 h3 h4
          | cons call todo => exact ih _ h1 h2 h3 (set _ _ ⟨trivial, ht.2⟩)
        | sized call n =>
          simp only
          cases he : encodeAll n (call.jobs std) with
          | error e =>
            refine ih _ h1 h2 h3 (set _ _ (fail t call e _ ?_ rfl))
            intro hc
            obtain ⟨recs, hr, -⟩ := call_packs codec hcodec std call n hc
            rw [he] at hr; cases hr
          | ok recs => exact ih _ h1 h2 h3 (set _ _ ⟨he, ht.2⟩)
        | encoded call n recs =>
          simp only
          cases he : packAll codec (s.level != 0) recs with
          | error e =>
            refine ih _ h1 h2 h3 (set _ _ (fail t call e _ ?_ rfl))
            intro hc
            obtain ⟨recs', hr, hk⟩ := call_packs codec hcodec std call n hc
            have hs := ht.1
            rw [hp] at hs
            have hs : encodeAll n (call.jobs std) = .ok recs := hs
            rw [hs] at hr
            cases hr
            obtain ⟨ps, hps⟩ := hk (s.level != 0)
            rw [he] at hps; cases hps
          | ok parts => exact ih _ h1 h2 h3 (set _ _ ⟨⟨_, rfl⟩, ht.2⟩)
        | waiting call n c script =>
          simp only
          have hs := ht.1
          rw [hp] at hs
          cases ho : s.owner with
          | some _ => exact ih _ h1 h2 h3 h4
          | none => exact ih _ h1 h2 h3 (set _ _ ⟨.inl hs, ht.2⟩)
        | inside call n c script pos out =>
          have hs := ht.1
          rw [hp] at hs
          rcases hs with ⟨rest, rfl⟩ | ⟨rfl, rfl⟩
          · simp only [MtStep.exec, h1, Option.isNone_none, if_true]
            exact ih _ rfl h2 h3 (set _ _ ⟨.inr ⟨rfl, rfl⟩, ht.2⟩)
          · simp only
            exact ih _ h1 h2 h3 (set _ _ (fail t call _ _ (fun _ => rfl) rfl))
  intro s
  obtain ⟨a1, a2, a3, a4⟩ := main schedule { stream := none, ra := ra, maxBuf := maxBuf, level := level, threads := fun t => { todo := prog t } } rfl rfl rfl
    (fun t => ⟨trivial, fun r hr => absurd hr List.not_mem_nil⟩)
  exact ⟨a1, a2, a3, fun t => (a4 t).2⟩

/-- With one thread that writes a run header and an event: both calls throw. -/
example : ((MtState.run sampleCfg.codec sampleCfg.std { stream := none, ra := none, maxBuf := 0, threads := fun t => { todo := if t = 0 then [.run {}, .event {} []] else [] } }
    (List.replicate 12 (.thread 0))).threads 0).results.map (fun r => match r.2 with | .error .ioException => true | _ => false) = [true, true] := by decide +kernel

end Props
