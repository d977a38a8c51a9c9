import Verif.Util.StdHepJobLemmas
import Verif.Props.Sessions
import Verif.Props.StdHep
import Verif.Props.StdHepNew
/-
The programs stdhepjob and stdhepjob_new: C98.
-/
namespace Props
open Sio Spec Lcio Util

/-- A reader that gives these events and then throws the exception at the end of the data. -/
inductive Yields (upd : LStdHep → Except Err (HepUpdate × LStdHep)) : LStdHep → List HepUpdate → Prop where
  | nil (s : LStdHep) : upd s = .error .endOfData → Yields upd s []
  | cons (s s' : LStdHep) (u : HepUpdate) (us : List HepUpdate) : upd s = .ok (u, s') → Yields upd s' us → Yields upd s (u :: us)

/-- The events that are written, from number `k` on. -/
def hepPuts (j : HepJob) : Nat → List HepUpdate → List Put
  | _, [] => []
  | k, u :: us => .event (hepEventHeader k u) (hepEventCols j.third u) (j.bufs k) :: hepPuts j (k + 1) us

/-- Everything that is written. -/
def hepSession (j : HepJob) (inFile : Str) (us : List HepUpdate) : Session := ⟨true, .run (hepRunHeader inFile) j.runBuf :: hepPuts j 0 us⟩

theorem hepPuts_length (j : HepJob) : ∀ (us : List HepUpdate) (k : Nat), (hepPuts j k us).length = us.length
  | [], _ => rfl
  | u :: us, k => by rw [hepPuts, List.length_cons, List.length_cons, hepPuts_length j us]

theorem hepPuts_get (j : HepJob) : ∀ (us : List HepUpdate) (k i : Nat) (u : HepUpdate), us[i]? = some u →
    (hepPuts j k us)[i]? = some (.event (hepEventHeader (k + i) u) (hepEventCols j.third u) (j.bufs (k + i)))
  | v :: us, k, 0, u, h => by cases h; rfl
  | v :: us, k, i + 1, u, h => by
    have := hepPuts_get j us (k + 1) i u h
    rw [show k + 1 + i = k + (i + 1) by omega] at this
    exact this

theorem hepPuts_mem (j : HepJob) (us : List HepUpdate) (k : Nat) (p : Put) (h : p ∈ hepPuts j k us) :
    ∃ i u, u ∈ us ∧ p = .event (hepEventHeader i u) (hepEventCols j.third u) (j.bufs i) := by
  induction us generalizing k with
  | nil => cases h
  | cons u us ih =>
    rcases List.mem_cons.1 h with h | h
    · exact ⟨k, u, List.mem_cons_self, h⟩
    · obtain ⟨i, v, hv, hp⟩ := ih (k + 1) h
      exact ⟨i, v, List.mem_cons_of_mem _ hv, hp⟩

theorem hepJobLoop_spec (j : HepJob) (upd : LStdHep → Except Err (HepUpdate × LStdHep)) (maxEvt : Int) : ∀ (us : List HepUpdate) (fuel k : Nat) (s : LStdHep) (w w' : Writer),
    Yields upd s us → us.length < fuel → (maxEvt < 0 ∨ (k : Int) ≤ maxEvt) →
    putAll j.codec j.std true w (hepPuts j k (us.take (convertedCount maxEvt (k + us.length) - k))) = .ok w' →
    hepJobLoop j upd maxEvt fuel k s w = .ok (convertedCount maxEvt (k + us.length), w') := by
  intro us
  induction us with
  | nil =>
    intro fuel k s w w' hy hf hk hp
    obtain ⟨fuel, rfl⟩ : ∃ n, fuel = n + 1 := ⟨fuel - 1, by simp at hf; omega⟩
    have hc : convertedCount maxEvt (k + ([] : List HepUpdate).length) = k := by
      unfold convertedCount
      rw [List.length_nil, Nat.add_zero]
      split
      · rfl
      · omega
    rw [List.take_nil] at hp
    cases hp
    rw [hc, hepJobLoop]
    cases hy with
    | nil _ h =>
      split
      · rw [h]
      · rfl
  | cons u us ih =>
    intro fuel k s w w' hy hf hk hp
    obtain ⟨fuel, rfl⟩ : ∃ n, fuel = n + 1 := ⟨fuel - 1, by omega⟩
    rw [List.length_cons] at hf hp ⊢
    rw [hepJobLoop]
    by_cases hm : maxEvt < 0 ∨ (k : Int) < maxEvt
    · rw [if_pos hm]
      have hc : convertedCount maxEvt (k + (us.length + 1)) - k = (convertedCount maxEvt (k + 1 + us.length) - (k + 1)) + 1 := by
        unfold convertedCount
        split <;> omega
      rw [hc, List.take_succ_cons, hepPuts, putAll] at hp
      cases hy with
      | cons _ s' _ _ h1 h2 =>
        rw [h1]
        simp only
        have hcall : (Put.event (hepEventHeader k u) (hepEventCols j.third u) (j.bufs k)).call j.codec j.std true w =
            w.writeEvent j.codec j.std true (j.bufs k).1 (j.bufs k).2 (hepEventHeader k u) (hepEventCols j.third u) := rfl
        rw [hcall] at hp
        generalize w.writeEvent j.codec j.std true (j.bufs k).1 (j.bufs k).2 (hepEventHeader k u) (hepEventCols j.third u) = q at hp
        obtain ⟨q1, q2⟩ := q
        cases q1 with
        | error e => cases hp
        | ok x =>
          simp only at hp ⊢
          rw [ih fuel (k + 1) s' q2 w' h2 (by omega) (by omega) hp, show k + 1 + us.length = k + (us.length + 1) by omega]
    · rw [if_neg hm]
      have hc : convertedCount maxEvt (k + (us.length + 1)) = k := by
        unfold convertedCount
        split <;> omega
      rw [hc, Nat.sub_self, List.take_zero] at hp
      cases hp
      rw [hc]

theorem hepJob_spec (j : HepJob) (upd : LStdHep → Except Err (HepUpdate × LStdHep)) (inFile : Str) (input : List Byte) (maxEvt : Int) (rounds : Nat) (s : LStdHep)
    (us : List HepUpdate) (ho : hepOpen input = .ok s) (hy : Yields upd s us) (hr : us.length < rounds) (bytes : List Byte)
    (hfile : fileAfter j.codec j.std [hepSession j inFile (us.take (convertedCount maxEvt us.length))] = .ok (some bytes)) :
    hepJob j upd inFile input false maxEvt rounds = .ok (convertedCount maxEvt us.length, some bytes) := by
  unfold fileAfter runSessions at hfile
  unfold hepJob
  simp only [ho, bind, Except.bind]
  cases hrun : (hepSession j inFile (us.take (convertedCount maxEvt us.length))).run j.codec j.std {} none with
  | error e => rw [hrun] at hfile; cases hfile
  | ok x =>
    obtain ⟨w1, file⟩ := x
    rw [hrun] at hfile
    have hb : file = some bytes := by
      simp only [runSessions] at hfile
      exact Except.ok.inj hfile
    subst hb
    unfold Session.run at hrun
    simp only [bind, Except.bind] at hrun
    have hnew : Writer.openNew {} = .ok { stream := some { bytes := [] } } := rfl
    rw [hnew] at hrun ⊢
    simp only [hepSession] at hrun ⊢
    rw [putAll] at hrun
    have hcall : (Put.run (hepRunHeader inFile) j.runBuf).call j.codec j.std true { stream := some { bytes := [] } } =
        ({ stream := some { bytes := [] } } : Writer).writeRunHeader j.codec true j.runBuf (hepRunHeader inFile) := rfl
    rw [hcall] at hrun
    generalize ({ stream := some { bytes := [] } } : Writer).writeRunHeader j.codec true j.runBuf (hepRunHeader inFile) = q at hrun ⊢
    obtain ⟨q1, q2⟩ := q
    cases q1 with
    | error e => cases hrun
    | ok x =>
      simp only at hrun ⊢
      cases hput : putAll j.codec j.std true q2 (hepPuts j 0 (us.take (convertedCount maxEvt us.length))) with
      | error e => rw [hput] at hrun; cases hrun
      | ok w' =>
        rw [hput] at hrun
        simp only at hrun
        have := hepJobLoop_spec j upd maxEvt us rounds 0 s q2 w' hy hr (by omega) (by rw [Nat.zero_add, Nat.sub_zero]; exact hput)
        rw [Nat.zero_add] at this
        simp only [pure, Except.pure, Bool.false_eq_true, if_false]
        rw [this]
        simp only
        rw [hrun]

/-! ## What is on the file -/

theorem run_writable (inFile : Str) (h : inFile.length < 2 ^ 20) : Writable runRecordName [(hepRunHeader inFile).block] ∧ dataLen [(hepRunHeader inFile).block] < 2 ^ 31 := by
  refine writable_one _ _ (by decide) (by decide) (by show (str "RunHeader").length < 100; decide) ?_
  have hw : (hepRunHeader inFile).block.items = w32 0 ++ wStr (str "Unknown") ++ wStr (str " file generated with LCIO stdhepjob from " ++ inFile) ++ w32 0 ++ [] ++
      (w32 0 ++ [] ++ (w32 0 ++ []) ++ (w32 0 ++ [])) := rfl
  rw [hw]
  have hl : (str " file generated with LCIO stdhepjob from ").length = 41 := by decide
  refine ((((((atMost_w32 0).append (atMost_str (str "Unknown") (by decide))).append (atMost_str (str " file generated with LCIO stdhepjob from " ++ inFile) ?_)).append
    (atMost_w32 0)).append AtMost.nil).append ((((atMost_w32 0).append AtMost.nil).append ((atMost_w32 0).append AtMost.nil)).append ((atMost_w32 0).append AtMost.nil))).mono ?_
  · rw [List.length_append, hl]; omega
  · rw [List.length_append, hl]
    have : (str "Unknown").length = 7 := by decide
    omega

theorem hepSession_ok (j : HepJob) (hcomp : Compresses j.codec) (inFile : Str) (h : inFile.length < 2 ^ 20) (us : List HepUpdate) (hs : ∀ u ∈ us, Shape u.2.2)
    (hn : us.length + 1 < 2 ^ 27) : SessionsOk j.codec j.std [hepSession j inFile us] := by
  have hjob : ∀ (name : Str) (bs : List WBlock), name.length < 100 → Writable name bs ∧ dataLen bs < 2 ^ 31 → Job.Ok j.codec ⟨name, 0, bs, true⟩ := by
    intro name bs hl ⟨h1, h2⟩
    refine ⟨h1, fun _ data hd => ?_⟩
    obtain ⟨comp, c1, c2⟩ := hcomp data (by rw [hd]; exact h2)
    refine ⟨comp, c1, ?_⟩
    show headerLen name + _ + 3 < _
    unfold headerLen padding
    omega
  have hkey : ∀ p ∈ (hepSession j inFile us).puts, p.key.run = 0 := by
    intro p hp
    rcases List.mem_cons.1 hp with rfl | hp
    · rfl
    · obtain ⟨i, u, _, rfl⟩ := hepPuts_mem j us 0 p hp
      rfl
  refine ⟨?_, ⟨_, [], rfl, by simp [hepSession]⟩, ?_⟩
  · intro s hs'
    rw [List.mem_singleton.1 hs']
    refine ⟨fun p hp => ?_, fun p hp q hq => ?_⟩
    · rcases List.mem_cons.1 hp with rfl | hp
      · refine ⟨⟨by show (str "Unknown").length < _; decide, ?_, by show ([] : List Str).length < _; simp, fun _ h => (nomatch h), ?_⟩, hjob _ _ (by decide) (run_writable inFile h)⟩
        · show (str " file generated with LCIO stdhepjob from " ++ inFile).length < _
          have hl : (str " file generated with LCIO stdhepjob from ").length = 41 := by decide
          rw [List.length_append, hl]; omega
        · have hm : ∀ {α : Type} (q : α → Prop), MapOk q [] := fun q => ⟨List.Pairwise.nil, by simp, fun _ h => (nomatch h), fun _ h => (nomatch h), fun _ h => (nomatch h)⟩
          exact ⟨hm _, hm _, hm _⟩
      · obtain ⟨i, u, hu, rfl⟩ := hepPuts_mem j us 0 p hp
        exact ⟨hjob _ _ (by decide) (header_writable j.third i u), hjob _ _ (by decide) (event_writable j.std j.third u (hs u hu))⟩
    · rw [hkey p hp, hkey q hq]
      decide
  · show ((hepSession j inFile us).puts ++ []).length < _
    rw [List.append_nil]
    show (hepPuts j 0 us).length + 1 < _
    rw [hepPuts_length]; exact hn

/-- The relations between the particles can be stored: they are symmetric. -/
def SymRel (c : HepCollection) : Prop :=
  ∀ (i j : Nat) a b, c.relatives[i]? = some a → c.relatives[j]? = some b → (j ∈ a.daughters ↔ i ∈ b.parents)

/-- The run header as it is read. -/
def loadedHeader (inFile name : Str) : RunHeader :=
  { run := 0, det := str "Unknown", descr := str " file generated with LCIO stdhepjob from " ++ inFile, params := { strs := [(str "LCIOFileName", [name])] } }

theorem hepPuts_events (j : HepJob) : ∀ (us : List HepUpdate) (k : Nat), (hepPuts j k us).filter Put.isEvent = hepPuts j k us
  | [], _ => rfl
  | u :: us, k => by rw [hepPuts, List.filter_cons, if_pos (by rfl), hepPuts_events j us]

theorem hepPuts_runs (j : HepJob) (name : Str) : ∀ (us : List HepUpdate) (k : Nat), (hepPuts j k us).filterMap (Put.loadedRun name) = []
  | [], _ => rfl
  | u :: us, k => by rw [hepPuts, List.filterMap_cons]; exact hepPuts_runs j name us (k + 1)

theorem hepFile_read (j : HepJob) (hcodec : Lossless j.codec) (hcomp : Compresses j.codec) (ignoreNull : Bool) (inFile : Str) (h : inFile.length < 2 ^ 20) (us : List HepUpdate)
    (hs : ∀ u ∈ us, Shape u.2.2 ∧ SymRel u.2.2) (hn : us.length + 1 < 2 ^ 27) (name : Str) :
    ∃ bytes r es, fileAfter j.codec j.std [hepSession j inFile us] = .ok (some bytes) ∧
      Reader.openFiles { codec := j.codec, std := j.std, ignoreNull } false [(name, bytes)] = (.ok (), r) ∧
      allRuns { codec := j.codec, std := j.std, ignoreNull } (us.length + 2) r = .ok [loadedHeader inFile name] ∧
      allEvents { codec := j.codec, std := j.std, ignoreNull } (us.length + 2) r = .ok es ∧ es.length = us.length ∧
      ∀ (i : Nat) u x, us[i]? = some u → es[i]? = some x →
        storeLoadEvent j.std ignoreNull [] [] (j.bufs i) 0 1 (hepEventHeader i u) (hepEventCols j.third u) = .ok x := by
  have hok := hepSession_ok j hcomp inFile h us (fun u hu => (hs u hu).1) hn
  have hall : allPuts [hepSession j inFile us] = .run (hepRunHeader inFile) j.runBuf :: hepPuts j 0 us := by
    show (hepSession j inFile us).puts ++ [] = _
    rw [List.append_nil]; rfl
  have hst : ∀ h cols buf, Put.event h cols buf ∈ allPuts [hepSession j inFile us] → Storable j.std ignoreNull [] [] h cols := by
    intro h cols buf hp
    rw [hall] at hp
    rcases List.mem_cons.1 hp with hp | hp
    · cases hp
    · obtain ⟨i, u, hu, he⟩ := hepPuts_mem j us 0 _ hp
      cases he
      exact event_storable j.std ignoreNull j.third i u (hs u hu).1
  have hload : Loadable { codec := j.codec, std := j.std, ignoreNull } (allPuts [hepSession j inFile us]) := by
    intro p hp file hd
    rw [hall] at hp
    rcases List.mem_cons.1 hp with rfl | hp
    · cases hd
    · obtain ⟨i, u, hu, rfl⟩ := hepPuts_mem j us 0 p hp
      obtain ⟨h', col, addr, e1, _⟩ := hep_loaded j.std ignoreNull j.third i u (hs u hu).1 (hs u hu).2 (j.bufs i)
      unfold delivery at hd
      simp only at hd
      rw [e1] at hd
      cases hd
  obtain ⟨bytes, r, es, f1, f2, f3, f4⟩ := C31_all_events { codec := j.codec, std := j.std, ignoreNull } hcodec [hepSession j inFile us] hok hst name
  obtain ⟨bytes', r', g1, g2, g3⟩ := C31_all_runs { codec := j.codec, std := j.std, ignoreNull } hcodec [hepSession j inFile us] hok hload name
  rw [g1] at f1
  have hb : bytes' = bytes := Option.some.inj (Except.ok.inj f1)
  subst hb
  rw [g2] at f2
  have hr : r' = r := (Prod.mk.inj f2).2
  subst hr
  have hlen : (allPuts [hepSession j inFile us]).length + 1 = us.length + 2 := by rw [hall, List.length_cons, hepPuts_length]
  rw [hlen] at f3 g3
  have hfe : (allPuts [hepSession j inFile us]).filter Put.isEvent = hepPuts j 0 us := by
    rw [hall, List.filter_cons, if_neg (by show ¬ false = true; decide), hepPuts_events]
  have hfr : (allPuts [hepSession j inFile us]).filterMap (Put.loadedRun name) = [loadedHeader inFile name] := by
    rw [hall, List.filterMap_cons]
    show loadedHeader inFile name :: _ = _
    rw [hepPuts_runs]
  rw [hfe] at f4
  rw [hfr] at g3
  refine ⟨bytes', r', es, g1, g2, g3, f3, by rw [← f4.1, hepPuts_length], fun i u x hu hx => ?_⟩
  obtain ⟨h', cols, buf, T, p1, p2, _⟩ := f4.2 i _ x (hepPuts_get j us 0 i u hu) hx
  rw [Nat.zero_add] at p1
  cases p1
  exact p2

/-- What is read for an event of the input. -/
theorem hep_event (std : Std Pid) (hflt : ∀ x, viaFloat std (viaFloat std x) = viaFloat std x) (ignoreNull : Bool) (third : Int → W32) (overLight : W64 → W64) (count : Nat)
    (e : HepEvent) (hu : Usable e) (weight : W64) (process : Int) (c c' : HepCollection) (hc : Converted (hepArithOf std overLight) e weight process c)
    (h1 : c'.particles = c.particles) (h2 : c'.idrup = c.idrup) (h3 : c'.weight = c.weight) (hsh : Shape c') (hsym : SymRel c') (buf : Str × Str) (x : EventData)
    (hx : storeLoadEvent std ignoreNull [] [] buf 0 1 (hepEventHeader count (c'.idrup.getD 0, std.narrow (std.widen c'.weight), c'))
      (hepEventCols third (c'.idrup.getD 0, std.narrow (std.widen c'.weight), c')) = .ok x) :
    ConvertedEvent std third overLight count e weight process c'.relatives x := by
  obtain ⟨h', col, addr, e1, e2, e3, e4, e5, e6, e7, e8, e9, e10, e11, e12⟩ :=
    hep_loaded std ignoreNull third count (c'.idrup.getD 0, std.narrow (std.widen c'.weight), c') hsh hsym buf
  rw [e1] at hx
  cases hx
  have hlen : c'.particles.length = e.tracks.length := by rw [h1, hc.particles]
  simp only at e5 e6 e9 e10 e11 e12
  rw [hlen] at e9 e10 e11
  refine ⟨e2, e3, e4, ?_, ?_, e7, col, addr, rfl, e8, e9, e10, e11, ?_⟩
  · rw [e5, h2, hc.process]
  · rw [e6, h3, hc.weight]
    rfl
  intro i t node ht hnode
  have hi : i < e.tracks.length := (List.getElem?_eq_some_iff.1 ht).1
  have hp := List.getElem?_eq_getElem (l := c.particles) (i := i) (by rw [hc.particles]; exact hi)
  have hsame := hc.same i t _ ht hp
  have hmem := List.mem_of_getElem? hp
  refine ⟨_, e12 i _ node (by rw [h1]; exact hp) hnode, ?_⟩
  generalize c.particles[i]'(by rw [hc.particles]; exact hi) = p at *
  have hv : ∀ a, viaFloat std ((hepArithOf std overLight).widen ((hepArithOf std overLight).narrow a)) = viaFloat std a := hflt
  refine ⟨?_, ?_, rfl, hsame.vertex, ?_, ?_, ⟨_, hsame.charge, rfl⟩, hsame.time, ?_, ?_, rfl, ?_⟩
  · show BitVec.ofInt 32 p.pdg = _; rw [hsame.pdg]
  · show BitVec.ofInt 32 p.genStatus = _; rw [hsame.status]
  · show p.momentum.map (viaFloat std) = _
    rw [hsame.momentum]
    simp only [List.map_cons, List.map_nil, hv]
  · show viaFloat std p.mass = _
    rw [hsame.mass, hv]
  · show p.spin = _
    unfold spinAt
    cases hev : e.ev4 with
    | none => exact (hc.old hev p hmem).1
    | some v =>
      obtain ⟨l1, l2⟩ := hu.spins v hev
      have hs := List.getElem?_eq_getElem (l := v.spins) (i := i) (by omega)
      have hcf := List.getElem?_eq_getElem (l := v.colors) (i := i) (by omega)
      simp only [hs]
      exact (hc.new v hev i p _ _ hp hs hcf).1
  · show p.colorFlow.map (BitVec.ofInt 32) = _
    unfold colorAt
    cases hev : e.ev4 with
    | none => simp only; rw [(hc.old hev p hmem).2]; rfl
    | some v =>
      obtain ⟨l1, l2⟩ := hu.spins v hev
      have hs := List.getElem?_eq_getElem (l := v.spins) (i := i) (by omega)
      have hcf := List.getElem?_eq_getElem (l := v.colors) (i := i) (by omega)
      simp only [hcf]
      rw [(hc.new v hev i p _ _ hp hs hcf).2]; rfl
  · rw [hlen]

/-! ## From the readers -/

theorem yields_updates (ar : HepArith) (fuel : Nat) : ∀ (us : List HepUpdate) (s : LStdHep), hepUpdates ar fuel (us.length + 1) s = (us, some .endOfData) →
    Yields (hepUpdateNext ar fuel) s us := by
  intro us
  induction us with
  | nil =>
    intro s h
    rw [List.length_nil, hepUpdates] at h
    cases hu : hepUpdateNext ar fuel s with
    | error e => rw [hu] at h; cases h; exact .nil _ hu
    | ok x => rw [hu] at h; simp only [Prod.mk.injEq] at h; cases h.1
  | cons u us ih =>
    intro s h
    rw [List.length_cons, hepUpdates] at h
    cases hu : hepUpdateNext ar fuel s with
    | error e => rw [hu] at h; simp only [Prod.mk.injEq] at h; cases h.1
    | ok x =>
      obtain ⟨v, s'⟩ := x
      rw [hu] at h
      simp only [Prod.mk.injEq, List.cons.injEq] at h
      obtain ⟨⟨rfl, h1⟩, h2⟩ := h
      exact .cons _ s' _ _ hu (ih s' (Prod.ext h1 h2))

/-- The reader of `stdhepjob_new`. -/
def updNew (ar : HepArith) (fuel : Nat) (s : LStdHep) : Except Err (HepUpdate × LStdHep) :=
  (hepUpdateNextNew ar fuel false s).map fun r => ((r.1.1, r.1.2.1, r.1.2.2.1), r.2)

theorem yields_updatesNew (ar : HepArith) (fuel : Nat) : ∀ (us : List (Int × W32 × HepCollection × Option Int)) (s : LStdHep),
    hepUpdatesNew ar fuel false (us.length + 1) s = (us, some .endOfData) → Yields (updNew ar fuel) s (us.map fun u => (u.1, u.2.1, u.2.2.1)) := by
  intro us
  induction us with
  | nil =>
    intro s h
    rw [List.length_nil, hepUpdatesNew] at h
    cases hu : hepUpdateNextNew ar fuel false s with
    | error e => rw [hu] at h; cases h; exact .nil _ (by rw [updNew, hu]; rfl)
    | ok x => rw [hu] at h; simp only [Prod.mk.injEq] at h; cases h.1
  | cons u us ih =>
    intro s h
    rw [List.length_cons, hepUpdatesNew] at h
    cases hu : hepUpdateNextNew ar fuel false s with
    | error e => rw [hu] at h; simp only [Prod.mk.injEq] at h; cases h.1
    | ok x =>
      obtain ⟨v, s'⟩ := x
      rw [hu] at h
      simp only [Prod.mk.injEq, List.cons.injEq] at h
      obtain ⟨⟨rfl, h1⟩, h2⟩ := h
      exact .cons _ s' _ _ (by rw [updNew, hu]; rfl) (ih s' (Prod.ext h1 h2))

theorem converted_lists {std : Std Pid} {overLight : W64 → W64} {e : HepEvent} {weight : W64} {process : Int} {c : HepCollection}
    (hc : Converted (hepArithOf std overLight) e weight process c) (hu : Usable e) :
    ∀ p ∈ c.particles, p.vertex.length = 3 ∧ p.momentum.length = 3 ∧ p.spin.length = 3 ∧ p.colorFlow.length = 2 := by
  intro p hp
  obtain ⟨i, hi⟩ := List.mem_iff_getElem?.1 hp
  have hl : i < e.tracks.length := by
    have := (List.getElem?_eq_some_iff.1 hi).1
    rwa [hc.particles] at this
  have hs := hc.same i _ p (List.getElem?_eq_getElem hl) hi
  rw [hs.vertex, hs.momentum]
  refine ⟨rfl, rfl, ?_⟩
  cases hev : e.ev4 with
  | none => rw [(hc.old hev p hp).1, (hc.old hev p hp).2]; exact ⟨rfl, rfl⟩
  | some v =>
    obtain ⟨l1, l2⟩ := hu.spins v hev
    have h := hc.new v hev i p _ _ hi (List.getElem?_eq_getElem (by omega)) (List.getElem?_eq_getElem (by omega))
    rw [h.1, h.2]; exact ⟨rfl, rfl⟩

theorem related_shape {std : Std Pid} {overLight : W64 → W64} {e : HepEvent} {weight : W64} {process : Int} {c : HepCollection}
    (hc : Converted (hepArithOf std overLight) e weight process c) (hu : Usable e) (hn : e.tracks.length < 10000) : Shape c ∧ SymRel c := by
  have hl := hc.particles
  have hr := hc.relatives.length
  refine ⟨⟨by omega, by omega, converted_lists hc hu, fun n hn => (hc.relatives.nodup n hn).1, fun n hn j hj => ?_⟩, hc.relatives.symmetric⟩
  obtain ⟨i, hi⟩ := List.mem_iff_getElem?.1 hn
  have := hc.relatives.inside i n hi j (Or.inr hj)
  omega

theorem mothers_shape {std : Std Pid} {overLight : W64 → W64} {e : HepEvent} {weight : W64} {process : Int} {c c' : HepCollection}
    (hc : Converted (hepArithOf std overLight) e.reduced weight process c) (hu : Usable e.reduced) (hm : UsableMothers e) (hn : e.tracks.length < 10000)
    (ha : MothersAdded e c c') : Shape c' ∧ SymRel c' := by
  have ht : e.reduced.tracks.length = e.tracks.length := by unfold HepEvent.reduced; rw [List.length_map]
  have hl := hc.particles
  have hr := hc.relatives.length
  have hr' := ha.relatives.length
  refine ⟨⟨by rw [ha.particles]; omega, by rw [ha.particles]; omega, by rw [ha.particles]; exact converted_lists hc hu, fun n hn => (ha.relatives.nodup n hn).1, fun n hn j hj => ?_⟩,
    ha.relatives.symmetric⟩
  rw [ha.particles]
  obtain ⟨i, hi⟩ := List.mem_iff_getElem?.1 hn
  have hil := (List.getElem?_eq_some_iff.1 hi).1
  have ht' := List.getElem?_eq_getElem (l := e.tracks) (i := i) (by omega)
  have hi0 := List.getElem?_eq_getElem (l := c.relatives) (i := i) (by omega)
  rw [ha.relatives.parents i _ _ n ht' hi0 hi, List.mem_append] at hj
  rcases hj with hj | hj
  · have := hc.relatives.inside i _ hi0 j (Or.inr hj)
    omega
  · have hj := (List.mem_filter.1 hj).1
    split at hj
    · cases hj
    · obtain ⟨m1, m2, m3, m4⟩ := hm.mothers _ (List.mem_of_getElem? ht')
      unfold namedMothers at hj
      split at hj
      · split at hj
        · have := (List.mem_range'_1.1 hj).2
          omega
        · rcases List.mem_cons.1 hj with h | h
          · omega
          · have := List.mem_singleton.1 h; omega
      · split at hj
        · have := List.mem_singleton.1 hj; omega
        · cases hj

theorem count_le (maxEvt : Int) (n : Nat) : convertedCount maxEvt n ≤ n := by unfold convertedCount; split <;> omega

/-- **C98**: `stdhepjob` converts all events of a StdHep file, or the first `maxEvt` of them if this number is not negative. It tells how many these are. A reader of the new file gets a run header
for run 0 that names the input file, and the events with the numbers 0, 1, ..., each with a collection `MCParticle` of the particles: see `ConvertedEvent` and
`ParticleOf`, and for parents and daughters `Related`. What is missing: events that are not `Usable` (see C69), and those with 10000 particles or more. -/
theorem C98_stdhepjob_partial (j : HepJob) (hcodec : Lossless j.codec) (hcomp : Compresses j.codec) (hflt : ∀ x, viaFloat j.std (viaFloat j.std x) = viaFloat j.std x)
    (overLight : W64 → W64) (f : HepFile) (input : List Byte) (h : f.In input) (hu : ∀ e ∈ f.events, Usable e.2.reduced ∧ e.2.tracks.length < 10000)
    (inFile : Str) (hname : inFile.length < 2 ^ 20) (maxEvt : Int) (hmax : convertedCount maxEvt f.events.length + 1 < 2 ^ 27)
    (fuel rounds : Nat) (hf : f.size < fuel) (hr : f.events.length < rounds) (ignoreNull : Bool) (name : Str) :
    ∃ bytes r es, stdhepjob j overLight inFile input false maxEvt fuel rounds = .ok (convertedCount maxEvt f.events.length, some bytes) ∧
      Reader.openFiles { codec := j.codec, std := j.std, ignoreNull } false [(name, bytes)] = (.ok (), r) ∧
      allRuns { codec := j.codec, std := j.std, ignoreNull } (convertedCount maxEvt f.events.length + 2) r = .ok [loadedHeader inFile name] ∧
      allEvents { codec := j.codec, std := j.std, ignoreNull } (convertedCount maxEvt f.events.length + 2) r = .ok es ∧ es.length = convertedCount maxEvt f.events.length ∧
      ∀ (i : Nat) e wp x, (f.events.map (·.2.reduced))[i]? = some e → (carried (0, 0) (f.events.map (·.2.reduced)))[i]? = some wp → es[i]? = some x →
        ∃ nodes, Related e nodes ∧ ConvertedEvent j.std j.third overLight i e wp.1 wp.2 nodes x := by
  obtain ⟨s, cs, h1, _, h3, h4⟩ := C69_collections_partial (hepArithOf j.std overLight) f input h (fun e he => (hu e he).1) 0 fuel hf
  have hlen : cs.length = f.events.length := by rw [h4.1, List.length_map]
  generalize hus : cs.map (fun c => (c.idrup.getD 0, (hepArithOf j.std overLight).narrow ((hepArithOf j.std overLight).widen c.weight), c)) = us at h3
  have hul : us.length = f.events.length := by rw [← hus, List.length_map, hlen]
  have hy := yields_updates (hepArithOf j.std overLight) fuel us s (by rw [hul]; exact h3)
  have hcl : (carried (0, 0) (f.events.map (·.2.reduced))).length = f.events.length := by
    have : ∀ (es : List HepEvent) k, (carried k es).length = es.length := by
      intro es
      induction es with
      | nil => intro k; rfl
      | cons e es ih => intro k; rw [carried, List.length_cons, List.length_cons, ih]
    rw [this, List.length_map]
  have hin : ∀ e ∈ f.events.map (·.2.reduced), Usable e ∧ e.tracks.length < 10000 := by
    intro e he
    obtain ⟨x, hx, rfl⟩ := List.mem_map.1 he
    refine ⟨(hu x hx).1, ?_⟩
    have := (hu x hx).2
    unfold HepEvent.reduced
    rwa [List.length_map]
  have hsh : ∀ u ∈ us, Shape u.2.2 ∧ SymRel u.2.2 := by
    intro u hu'
    rw [← hus] at hu'
    obtain ⟨c, hc, rfl⟩ := List.mem_map.1 hu'
    obtain ⟨i, hi⟩ := List.mem_iff_getElem?.1 hc
    have hil := (List.getElem?_eq_some_iff.1 hi).1
    have he := List.getElem?_eq_getElem (l := f.events.map (·.2.reduced)) (i := i) (by rw [List.length_map]; omega)
    have hw := List.getElem?_eq_getElem (l := carried (0, 0) (f.events.map (·.2.reduced))) (i := i) (by omega)
    have hm := hin _ (List.mem_of_getElem? he)
    exact related_shape (h4.2 i _ c _ he hi hw) hm.1 hm.2
  have hcn := count_le maxEvt f.events.length
  obtain ⟨bytes, r, es, g1, g2, g3, g4, g5, g6⟩ := hepFile_read j hcodec hcomp ignoreNull inFile hname (us.take (convertedCount maxEvt us.length))
    (fun u h => hsh u (List.mem_of_mem_take h)) (by rw [List.length_take, hul]; omega) name
  have htl : (us.take (convertedCount maxEvt us.length)).length = convertedCount maxEvt f.events.length := by rw [List.length_take, hul]; omega
  rw [htl] at g3 g4 g5
  refine ⟨bytes, r, es, ?_, g2, g3, g4, g5, ?_⟩
  · rw [← hul]
    exact hepJob_spec j _ inFile input maxEvt rounds s us h1 hy (by omega) bytes g1
  · intro i e wp x he hw hx
    have hil := (List.getElem?_eq_some_iff.1 hx).1
    obtain ⟨c, hc⟩ : ∃ c, cs[i]? = some c := ⟨_, List.getElem?_eq_getElem (by omega)⟩
    have hconv := h4.2 i e c wp he hc hw
    have hm := hin e (List.mem_of_getElem? he)
    obtain ⟨s1, s2⟩ := related_shape hconv hm.1 hm.2
    refine ⟨_, hconv.relatives, ?_⟩
    refine hep_event j.std hflt ignoreNull j.third overLight i e hm.1 wp.1 wp.2 _ _ hconv rfl rfl rfl s1 s2 (j.bufs i) x (g6 i _ x ?_ hx)
    rw [List.getElem?_take_of_lt (by rw [hul]; omega), ← hus, List.getElem?_map, hc]
    rfl

/-- **C98** for `stdhepjob_new`: the same, with further relations of the particles to the mothers they name (see C79). -/
theorem C98_stdhepjob_new_partial (j : HepJob) (hcodec : Lossless j.codec) (hcomp : Compresses j.codec) (hflt : ∀ x, viaFloat j.std (viaFloat j.std x) = viaFloat j.std x)
    (overLight : W64 → W64) (f : HepFile) (input : List Byte) (h : f.In input) (hu : ∀ e ∈ f.events, Usable e.2.reduced ∧ UsableMothers e.2 ∧ e.2.tracks.length < 10000)
    (inFile : Str) (hname : inFile.length < 2 ^ 20) (maxEvt : Int) (hmax : convertedCount maxEvt f.events.length + 1 < 2 ^ 27)
    (fuel rounds : Nat) (hf : f.size < fuel) (hr : f.events.length < rounds) (ignoreNull : Bool) (name : Str) :
    ∃ bytes r es, stdhepjobNew j overLight inFile input false maxEvt fuel rounds = .ok (convertedCount maxEvt f.events.length, some bytes) ∧
      Reader.openFiles { codec := j.codec, std := j.std, ignoreNull } false [(name, bytes)] = (.ok (), r) ∧
      allRuns { codec := j.codec, std := j.std, ignoreNull } (convertedCount maxEvt f.events.length + 2) r = .ok [loadedHeader inFile name] ∧
      allEvents { codec := j.codec, std := j.std, ignoreNull } (convertedCount maxEvt f.events.length + 2) r = .ok es ∧ es.length = convertedCount maxEvt f.events.length ∧
      ∀ (i : Nat) e wp x, (f.events.map (·.2))[i]? = some e → (carried (0, 0) (f.events.map (·.2.reduced)))[i]? = some wp → es[i]? = some x →
        ∃ nodes nodes', Related e.reduced nodes ∧ WithMothers e (fun t => if Overlooked t then [] else namedMothers t) nodes nodes' ∧
          ConvertedEvent j.std j.third overLight i e.reduced wp.1 wp.2 nodes' x := by
  obtain ⟨s, cs, cs', h1, _, h4, _, h3, h5⟩ := C79_collections_partial (hepArithOf j.std overLight) f input h (fun e he => ⟨(hu e he).1, (hu e he).2.1⟩) 0 fuel hf false
  have hlen : cs.length = f.events.length := by rw [h4.1, List.length_map]
  have hlen' : cs'.length = f.events.length := by rw [h5.1, hlen]
  generalize hvs : List.zipWith (fun (e : Int × HepEvent) c => (c.idrup.getD 0, (hepArithOf j.std overLight).narrow ((hepArithOf j.std overLight).widen c.weight), c,
    if false = true then some e.2.number else none)) f.events cs' = vs at h3
  have hvl : vs.length = f.events.length := by rw [← hvs, List.length_zipWith, hlen', Nat.min_self]
  have hy := yields_updatesNew (hepArithOf j.std overLight) fuel vs s (by rw [hvl]; exact h3)
  have hvu : vs.map (fun u => (u.1, u.2.1, u.2.2.1)) =
      cs'.map (fun c => (c.idrup.getD 0, (hepArithOf j.std overLight).narrow ((hepArithOf j.std overLight).widen c.weight), c)) := by
    rw [← hvs, List.map_zipWith]
    have : ∀ (es : List (Int × HepEvent)) (l : List HepCollection), l.length ≤ es.length →
        List.zipWith (fun (_ : Int × HepEvent) (c : HepCollection) => (c.idrup.getD 0, (hepArithOf j.std overLight).narrow ((hepArithOf j.std overLight).widen c.weight), c)) es l =
        l.map (fun c => (c.idrup.getD 0, (hepArithOf j.std overLight).narrow ((hepArithOf j.std overLight).widen c.weight), c)) := by
      intro es
      induction es with
      | nil => intro l hl; cases l with
        | nil => rfl
        | cons a l => simp at hl
      | cons e es ih => intro l hl; cases l with
        | nil => rfl
        | cons a l => rw [List.zipWith_cons_cons, List.map_cons, ih l (by simpa using hl)]
    exact this _ _ (by omega)
  rw [hvu] at hy
  generalize hus : cs'.map (fun c => (c.idrup.getD 0, (hepArithOf j.std overLight).narrow ((hepArithOf j.std overLight).widen c.weight), c)) = us at hy
  have hul : us.length = f.events.length := by rw [← hus, List.length_map, hlen']
  have hcl : (carried (0, 0) (f.events.map (·.2.reduced))).length = f.events.length := by
    have : ∀ (es : List HepEvent) k, (carried k es).length = es.length := by
      intro es
      induction es with
      | nil => intro k; rfl
      | cons e es ih => intro k; rw [carried, List.length_cons, List.length_cons, ih]
    rw [this, List.length_map]
  have hin : ∀ e ∈ f.events.map (·.2), Usable e.reduced ∧ UsableMothers e ∧ e.tracks.length < 10000 := by
    intro e he
    obtain ⟨x, hx, rfl⟩ := List.mem_map.1 he
    exact hu x hx
  have hred : ∀ (i : Nat) e, (f.events.map (·.2))[i]? = some e → (f.events.map (·.2.reduced))[i]? = some e.reduced := by
    intro i e he
    rw [List.getElem?_map] at he ⊢
    cases hfe : f.events[i]? with
    | none => rw [hfe] at he; cases he
    | some y => rw [hfe] at he; cases he; rfl
  have hsh : ∀ u ∈ us, Shape u.2.2 ∧ SymRel u.2.2 := by
    intro u hu'
    rw [← hus] at hu'
    obtain ⟨c, hc, rfl⟩ := List.mem_map.1 hu'
    obtain ⟨i, hi⟩ := List.mem_iff_getElem?.1 hc
    have hil := (List.getElem?_eq_some_iff.1 hi).1
    have he := List.getElem?_eq_getElem (l := f.events.map (·.2)) (i := i) (by rw [List.length_map]; omega)
    have hw := List.getElem?_eq_getElem (l := carried (0, 0) (f.events.map (·.2.reduced))) (i := i) (by omega)
    have hc0 := List.getElem?_eq_getElem (l := cs) (i := i) (by omega)
    have hm := hin _ (List.mem_of_getElem? he)
    exact mothers_shape (h4.2 i _ _ _ (hred i _ he) hc0 hw) hm.1 hm.2.1 hm.2.2 (h5.2 i _ _ c he hc0 hi)
  have hcn := count_le maxEvt f.events.length
  obtain ⟨bytes, r, es, g1, g2, g3, g4, g5, g6⟩ := hepFile_read j hcodec hcomp ignoreNull inFile hname (us.take (convertedCount maxEvt us.length))
    (fun u h => hsh u (List.mem_of_mem_take h)) (by rw [List.length_take, hul]; omega) name
  have htl : (us.take (convertedCount maxEvt us.length)).length = convertedCount maxEvt f.events.length := by rw [List.length_take, hul]; omega
  rw [htl] at g3 g4 g5
  refine ⟨bytes, r, es, ?_, g2, g3, g4, g5, ?_⟩
  · rw [← hul]
    exact hepJob_spec j _ inFile input maxEvt rounds s us h1 hy (by omega) bytes g1
  · intro i e wp x he hw hx
    have hil := (List.getElem?_eq_some_iff.1 hx).1
    obtain ⟨c, hc⟩ : ∃ c, cs[i]? = some c := ⟨_, List.getElem?_eq_getElem (by omega)⟩
    obtain ⟨c', hc'⟩ : ∃ c, cs'[i]? = some c := ⟨_, List.getElem?_eq_getElem (by omega)⟩
    have hconv := h4.2 i e.reduced _ wp (hred i e he) hc hw
    have hadd := h5.2 i e _ _ he hc hc'
    have hm := hin e (List.mem_of_getElem? he)
    obtain ⟨s1, s2⟩ := mothers_shape hconv hm.1 hm.2.1 hm.2.2 hadd
    refine ⟨_, _, hconv.relatives, hadd.relatives, ?_⟩
    refine hep_event j.std hflt ignoreNull j.third overLight i e.reduced hm.1 wp.1 wp.2 _ _ hconv hadd.particles hadd.process hadd.weight s1 s2 (j.bufs i) x (g6 i _ x ?_ hx)
    rw [List.getElem?_take_of_lt (by rw [hul]; omega), ← hus, List.getElem?_map, hc']
    rfl

/-- **C98**: an existing output file is not touched, the program ends with an exception. -/
theorem C98_existing_output (j : HepJob) (overLight : W64 → W64) (inFile : Str) (input : List Byte) (s : LStdHep) (ho : hepOpen input = .ok s) (maxEvt : Int) (fuel rounds : Nat) :
    stdhepjob j overLight inFile input true maxEvt fuel rounds = .error .ioException ∧ stdhepjobNew j overLight inFile input true maxEvt fuel rounds = .error .ioException := by
  unfold stdhepjob stdhepjobNew hepJob
  rw [ho]
  exact ⟨rfl, rfl⟩

/-- The hypotheses for the file `hepSample` with two events. -/
example (third : Int → W32) (overLight : W64 → W64) (bufs : Nat → Str × Str) (runBuf : Str) :
    ∃ bytes r es, stdhepjob ⟨idCodec, ieee, third, bufs, runBuf⟩ overLight (str "in.stdhep") hepSampleBytes false (-1) 10 10 = .ok (2, some bytes) ∧
      Reader.openFiles { codec := idCodec, std := ieee, ignoreNull := false } false [(str "out.slcio", bytes)] = (.ok (), r) ∧
      allEvents { codec := idCodec, std := ieee, ignoreNull := false } 4 r = .ok es ∧ es.length = 2 := by
  have hc : Compresses idCodec := fun data h => ⟨data, rfl, h⟩
  have hev : hepSample.events = [(5, hepEvent1), (5, hepEvent2)] := rfl
  obtain ⟨bytes, r, es, h1, h2, _, h4, h5, _⟩ := C98_stdhepjob_partial ⟨idCodec, ieee, third, bufs, runBuf⟩ idCodec_lossless hc viaFloat_twice overLight hepSample hepSampleBytes
    hepSample_in (fun e he => ⟨hepSample_usable e he, by
      rw [hev] at he
      rcases List.mem_cons.1 he with rfl | he
      · decide +kernel
      · rw [List.mem_singleton.1 he]; decide +kernel⟩) (str "in.stdhep") (by decide) (-1) (by rw [hev]; decide) 10 10 (by decide +kernel) (by rw [hev]; decide) false (str "out.slcio")
  exact ⟨bytes, r, es, h1, h2, h4, h5⟩

/-- And for `stdhepjob_new`, with one event only. -/
example (third : Int → W32) (overLight : W64 → W64) (bufs : Nat → Str × Str) (runBuf : Str) :
    ∃ bytes, stdhepjobNew ⟨idCodec, ieee, third, bufs, runBuf⟩ overLight (str "in.stdhep") hepSampleBytes false 1 10 10 = .ok (1, some bytes) := by
  have hc : Compresses idCodec := fun data h => ⟨data, rfl, h⟩
  have hev : hepSample.events = [(5, hepEvent1), (5, hepEvent2)] := rfl
  obtain ⟨bytes, r, es, h1, _⟩ := C98_stdhepjob_new_partial ⟨idCodec, ieee, third, bufs, runBuf⟩ idCodec_lossless hc viaFloat_twice overLight hepSample hepSampleBytes
    hepSample_in (fun e he => ⟨(hepSample_mothers e he).1, (hepSample_mothers e he).2, by
      rw [hev] at he
      rcases List.mem_cons.1 he with rfl | he
      · decide +kernel
      · rw [List.mem_singleton.1 he]; decide +kernel⟩) (str "in.stdhep") (by decide) 1 (by rw [hev]; decide) 10 10 (by decide +kernel) (by rw [hev]; decide) false (str "out.slcio")
  exact ⟨bytes, h1⟩

/-- **C98 fails** for files with events that are not usable: nothing is converted if a particle lists itself and one that is not there as its daughters. -/
theorem C98_fails_for_wrong_numbers : (match stdhepjob ⟨idCodec, ieee, fun _ => 0, fun _ => ([], []), []⟩ id (str "in.stdhep")
    (hepOne { number := 1, tracks := [hepTrack 22 1 0 0 1 2 1] }) false (-1) 10 10 with
    | .error e => some e
    | .ok _ => none) = some .ub := by decide +kernel

end Props
