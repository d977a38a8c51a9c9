import Verif.Spec.Lsh
import Verif.Util.LshLemmas
import Verif.Props.Anajob
import Verif.Props.Reopen
import Verif.Props.Direct
/-
C111: the shell shows what is in files.
-/
namespace Props
open Sio Lcio Spec Util

/-- A file that can be shown: it was written by some sessions, all events of it can be stored, and it is not large. -/
structure LshFile (cfg : RConfig) (disk : Str → Option (List Byte)) (fuel : Nat) (c : Str × List Session) : Prop where
  ok : SessionsOk cfg.codec cfg.std c.2
  storable : ∀ h cols buf, Put.event h cols buf ∈ allPuts c.2 → Storable cfg.std cfg.ignoreNull [] cfg.wanted h cols
  file : ∃ bytes, disk c.1 = some bytes ∧ fileAfter cfg.codec cfg.std c.2 = .ok (some bytes) ∧ bytes.length ≤ 50000000
  fuel : (allPuts c.2).length < fuel

/-- A reader stands at the beginning of a file. -/
structure Begins (cfg : RConfig) (first : Str) (ps : List Put) (r : Reader) : Prop where
  «at» : At cfg r first ps []
  files : ∃ bytes, r.files = [(first, bytes)]
  index : r.index = 0

theorem Begins.hasNext {cfg : RConfig} {first : Str} {ps : List Put} {r : Reader} (h : Begins cfg first ps r) : r.hasNext = false := by
  obtain ⟨b, h1⟩ := h.files
  unfold Reader.hasNext
  rw [h1, h.index]
  rfl

theorem Begins.close {cfg : RConfig} {first : Str} {ps : List Put} {r r' : Reader} (h : Begins cfg first ps r) (hf : r'.files = r.files) (hi : r'.index = r.index) :
    Kept first r'.close := by
  obtain ⟨b, h1⟩ := h.files
  exact ⟨⟨b, by show r'.files = _; rw [hf, h1]⟩, by show r'.index = _; rw [hi, h.index], rfl⟩

variable {cfg : RConfig} {disk : Str → Option (List Byte)} {fuel : Nat}

theorem LshFile.loadable {c : Str × List Session} (h : LshFile cfg disk fuel c) : Loadable cfg (allPuts c.2) := storable_loadable cfg _ h.storable

theorem LshFile.numbered {c : Str × List Session} (h : LshFile cfg disk fuel c) (name : Str) : Numbered cfg name (allPuts c.2) := by
  intro p hp he
  cases p with
  | run => simp [Put.isEvent] at he
  | event x cols buf =>
    obtain ⟨h', L, T, e1, ⟨e2, e3, -⟩, -⟩ := event_loaded cfg.std cfg.ignoreNull [] cfg.wanted x cols (h.storable x cols buf hp) buf 0 1 (by omega)
    refine ⟨(h', withDaughters (kids L) L), ?_, ?_⟩
    · simp only [delivery, e1]
    · simp only [Put.key, e2, e3]

theorem lshOpen_kept (hcodec : Lossless cfg.codec) {c : Str × List Session} (h : LshFile cfg disk fuel c) (first : Str) (r : Reader) (hk : Kept first r) :
    ∃ r', lshOpen cfg disk c.1 r = (.ok (), r') ∧ Begins cfg first (allPuts c.2) r' ∧ r'.readMap = false := by
  obtain ⟨bytes, hd, h1, -⟩ := h.file
  obtain ⟨⟨b, k1⟩, k2, k3⟩ := hk
  obtain ⟨r0, c', cs, a1, a2, a3, a4, a5⟩ := open_at cfg hcodec [(first, bytes)] [(first, c.2)] (Lcio.All2.cons ⟨rfl, h1, .inl h.ok⟩ (Lcio.All2.nil _)) (by simp) (by
    intro x hx
    rw [List.mem_singleton.1 hx]
    exact h.loadable)
  simp only [List.cons.injEq] at a2
  obtain ⟨rfl, rfl⟩ := a2
  have e : r.openName cfg c.1 bytes = (.ok (), { r with stream := { bytes := bytes } }) := by
    unfold Reader.openName Reader.openFile
    simp only [k3, Bool.false_eq_true, if_false, k1, List.isEmpty_cons]
  refine ⟨{ r with stream := { bytes := bytes } }, by unfold lshOpen; rw [hd]; exact e, ⟨⟨?_, ?_, ?_⟩, ⟨b, k1⟩, k2⟩, k3⟩
  · have := a3.stream
    cases a1
    exact this
  · unfold Reader.fileName
    simp only [k1, k2]
    rfl
  · simp only [k1, k2]
    exact Lcio.All2.nil _

theorem lshOpen_new (hcodec : Lossless cfg.codec) {c : Str × List Session} (h : LshFile cfg disk fuel c) (hd : DirectOk c.2) :
    ∃ r', lshOpen cfg disk c.1 (Reader.new true) = (.ok (), r') ∧ Begins cfg c.1 (allPuts c.2) r' := by
  obtain ⟨bytes, hd', h1, hlen⟩ := h.file
  obtain ⟨r0, c', cs, a1, a2, a3, a4, a5⟩ := open_at cfg hcodec [(c.1, bytes)] [(c.1, c.2)] (Lcio.All2.cons ⟨rfl, h1, .inl h.ok⟩ (Lcio.All2.nil _)) (by simp) (by
    intro x hx
    rw [List.mem_singleton.1 hx]
    exact h.loadable)
  simp only [List.cons.injEq] at a2
  obtain ⟨rfl, rfl⟩ := a2
  obtain ⟨ra, b, e1, -⟩ := map_reports_cleared cfg hcodec c.2 h.ok hd h.loadable bytes h1 (by omega) {}
  have e : (Reader.new true).openName cfg c.1 bytes = (.ok (), { files := [(c.1, bytes)], stream := { bytes := bytes }, readMap := true, ra := ra }) := by
    unfold Reader.openName Reader.openFile Reader.new
    have e1 : ({} : RaMgr).createEventMap cfg.codec { bytes := bytes } = (.ok b, { bytes := bytes }, ra) := e1
    simp only [if_true, e1, List.isEmpty_nil]
  refine ⟨_, by unfold lshOpen; rw [hd']; exact e, ⟨?_, rfl, Lcio.All2.nil _⟩, ⟨bytes, rfl⟩, rfl⟩
  have := a3.stream
  cases a1
  exact this

/-- All run headers and all events. -/
theorem begins_all {c : Str × List Session} (h : LshFile cfg disk fuel c) {first : Str} {r : Reader} (hb : Begins cfg first (allPuts c.2) r) :
    allRuns cfg fuel r = .ok (runHeadersIn cfg ((allPuts c.2).map fun p => (first, p))) ∧ allEvents cfg fuel r = .ok (eventDataIn cfg ((allPuts c.2).map fun p => (first, p))) := by
  have hits : following first (allPuts c.2) [] = (allPuts c.2).map fun p => (first, p) := by simp [following, items]
  have hl : ∀ x ∈ (allPuts c.2).map fun p => (first, p), delivery cfg x.1 x.2 ≠ none := by
    intro x hx
    obtain ⟨p, hp, rfl⟩ := List.mem_map.1 hx
    exact h.loadable p hp _
  have hg : ∀ gs, gets cfg gs r = .ok (serve cfg gs ((allPuts c.2).map fun p => (first, p))) := by
    intro gs
    rw [← hits]
    exact gets_serve cfg gs r _ _ _ hb.at (by rw [hits]; exact hl)
  have hf := h.fuel
  refine ⟨allRuns_serve cfg _ fuel _ r ?_ (delivered_runs cfg _) hg, allEvents_serve cfg _ fuel _ r ?_ (delivered_events cfg _ hl) hg⟩
  · refine Nat.lt_of_le_of_lt (List.length_filterMap_le _ _) ?_
    rw [List.length_map]
    exact hf
  · refine Nat.lt_of_le_of_lt (List.length_filterMap_le _ _) ?_
    rw [List.length_map]
    exact hf

/-- Events do not depend on the name of the file. -/
theorem events_names (a b : Str) (ps : List Put) : eventDataIn cfg (ps.map fun p => (a, p)) = eventDataIn cfg (ps.map fun p => (b, p)) := by
  unfold eventDataIn
  rw [List.filterMap_map, List.filterMap_map]
  congr 1
  funext p
  cases p <;> rfl

theorem runs_names (a : Str) (ps : List Put) : (runHeadersIn cfg (ps.map fun p => (a, p))).map (fun h => (h.run.toInt, h.descr)) = runsOf ps := by
  unfold runHeadersIn runsOf
  induction ps with
  | nil => rfl
  | cons p ps ih =>
    cases p with
    | run h buf =>
      rw [List.map_cons, List.filterMap_cons, List.filterMap_cons]
      exact congrArg (List.cons (h.run.toInt, h.descr)) ih
    | event h cols buf =>
      have := (delivery_kind cfg a (.event h cols buf)).2 rfl
      rw [List.map_cons, List.filterMap_cons, List.filterMap_cons, this.1]
      exact ih

/-- The first event with given numbers, among what was written and among what is read. -/
theorem find_delivered (name : Str) (run evt : W32) (ps : List Put) (hn : Numbered cfg name ps) :
    ((eventDataIn cfg (ps.map fun p => (name, p))).find? fun e => decide (e.1.run.toInt = run.toInt ∧ e.1.evt.toInt = evt.toInt)) =
      (ps.find? (wantedEvent run evt)).bind fun p => asEvent (delivery cfg name p) := by
  unfold eventDataIn
  induction ps with
  | nil => rfl
  | cons p ps ih =>
    have ih := ih fun p hp => hn p (List.mem_cons_of_mem _ hp)
    rw [List.map_cons, List.filterMap_cons, List.find?_cons]
    cases he : p.isEvent with
    | false =>
      obtain ⟨h, e⟩ := (delivery_kind cfg name p).1 he
      simp only [e, asEvent, wantedEvent, he, Bool.false_and]
      exact ih
    | true =>
      obtain ⟨e, e1, e2⟩ := hn p (by simp) he
      simp only [e1, asEvent, List.find?_cons, wantedEvent, he, Bool.true_and]
      rw [← e2]
      by_cases hk : e.1.run = run ∧ e.1.evt = evt
      · simp [hk, e1]
      · have h1 : decide (e.1.run.toInt = run.toInt ∧ e.1.evt.toInt = evt.toInt) = false := by
          rw [decide_eq_false_iff_not]
          exact fun h => hk ⟨BitVec.eq_of_toInt_eq h.1, BitVec.eq_of_toInt_eq h.2⟩
        have h2 : decide ((⟨e.1.run, e.1.evt⟩ : RunEvent) = ⟨run, evt⟩) = false := by
          rw [decide_eq_false_iff_not]
          intro h
          simp only [RunEvent.mk.injEq] at h
          exact hk h
        rw [h1, h2]
        exact ih

def InRange (n : Int) : Prop := -2 ^ 31 ≤ n ∧ n < 2 ^ 31

theorem inRange_toInt {n : Int} (h : InRange n) : (BitVec.ofInt 32 n : W32).toInt = n := by
  rw [BitVec.toInt_ofInt]
  unfold InRange at h
  exact Int.bmod_eq_of_le (by omega) (by omega)

/-- `readEvent` in a file that was opened. -/
theorem fetch_eq (hcodec : Lossless cfg.codec) {c : Str × List Session} (h : LshFile cfg disk fuel c) (s : Shell) (first : Str) (hk : Kept first s.reader) (run evt : Int)
    (h1 : InRange run) (h2 : InRange evt) :
    ∃ rd, s.fetch cfg disk c.1 run evt = .ok (eventAt cfg c run evt, { s with reader := rd }) ∧ Kept first rd := by
  obtain ⟨r, e1, e2, e3⟩ := lshOpen_kept hcodec h first s.reader hk
  have hf := find_delivered first (BitVec.ofInt 32 run) (BitVec.ofInt 32 evt) (allPuts c.2) (h.numbered first)
  rw [inRange_toInt h1, inRange_toInt h2] at hf
  obtain ⟨a1, a2⟩ := search_at cfg (BitVec.ofInt 32 run) (BitVec.ofInt 32 evt) r e3 _ _ _ e2.at (h.numbered first)
  have hr : (r.readEvent cfg (BitVec.ofInt 32 run) (BitVec.ofInt 32 evt)).1 = .ok (eventAt cfg c run evt) := by
    unfold eventAt lshEvents
    rw [events_names c.1 first, hf]
    cases hp : (allPuts c.2).find? (wantedEvent (BitVec.ofInt 32 run) (BitVec.ofInt 32 evt)) with
    | none =>
      rw [List.find?_eq_none] at hp
      refine a1 fun p hp' he hk => hp p hp' ?_
      simp [wantedEvent, he, hk]
    | some p =>
      obtain ⟨h1, pre, post, h2, h3⟩ := List.find?_eq_some_iff_append.1 hp
      simp only [wantedEvent, Bool.and_eq_true, decide_eq_true_eq] at h1
      obtain ⟨e, b1, b2⟩ := a2 pre p post h2 (by
        intro q hq he hk
        have := h3 q hq
        simp [wantedEvent, he, hk] at this) h1.1 h1.2
      rw [b1]
      simp [b2, asEvent]
  obtain ⟨c1, c2⟩ := search_same cfg r e3 (BitVec.ofInt 32 run) (BitVec.ofInt 32 evt)
  refine ⟨(r.readEvent cfg (BitVec.ofInt 32 run) (BitVec.ofInt 32 evt)).2.close, ?_, e2.close c1 c2⟩
  unfold Shell.fetch
  rw [e1]
  cases hx : r.readEvent cfg (BitVec.ofInt 32 run) (BitVec.ofInt 32 evt) with
  | mk a b =>
    rw [hx] at hr
    simp only at hr
    subst hr
    simp only [hx]

/-! ## States -/

/-- The entries of `position`. -/
def spots (cfg : RConfig) (c : Str × List Session) : List Int → List (Int × Str)
  | [] => [(0, c.1)]
  | [run] => [(0, c.1), (run, str "/run_" ++ decInt run)]
  | [run, evt] => [(0, c.1), (run, str "/run_" ++ decInt run), (evt, str "/evt_" ++ decInt evt)]
  | run :: evt :: n :: _ => [(0, c.1), (run, str "/run_" ++ decInt run), (evt, str "/evt_" ++ decInt evt),
      (n, str "/" ++ ((collectionAt cfg c run evt n).map (·.1)).getD [])]

/-- The shell is at a place. -/
structure Stands (cfg : RConfig) (disk : Str → Option (List Byte)) (fuel : Nat) (p : LshPlace) (s : Shell) : Prop where
  file : LshFile cfg disk fuel p.file
  position : s.position = spots cfg p.file p.place
  short : p.place.length ≤ 3
  range : ∀ n ∈ p.place, InRange n
  reader : ∃ first, Kept first s.reader
  withEvents : s.withEvents = true
  total : s.numEvents = p.total cfg
  list : RunList (runsOf (allPuts p.file.2)) (lshEvents cfg p.file) (s.runs.map fun x => (x.1, x.2, (omFind intLt x.1 s.counts).getD 0))

/-- Opening a file. -/
theorem open_stands (hcodec : Lossless cfg.codec) {c : Str × List Session} (h : LshFile cfg disk fuel c) (s : Shell) (before : List (Str × List Session))
    (hw : s.withEvents = true) (hn : s.numEvents = (before.map fun c => (lshEvents cfg c).length).sum)
    (hr : ∃ first r, lshOpen cfg disk c.1 s.reader = (.ok (), r) ∧ Begins cfg first (allPuts c.2) r) :
    ∃ s', s.openFile cfg disk fuel c.1 = .ok s' ∧ Stands cfg disk fuel { file := c, before := before } s' := by
  obtain ⟨first, r, e1, e2⟩ := hr
  obtain ⟨bytes, hd, -, hlen⟩ := h.file
  obtain ⟨r1, e3, e4⟩ := runLoop_all cfg fuel r _ [] [] e2.hasNext (begins_all h e2).1
  have hk := e2.close e4.files e4.index
  obtain ⟨r2, f1, f2, -⟩ := lshOpen_kept hcodec h first _ hk
  obtain ⟨r3, f3, f4⟩ := eventLoop_all cfg fuel r2 _ ((runHeadersIn cfg ((allPuts c.2).map fun p => (first, p))).foldl (fun m h => omInsert intLt h.run.toInt 0 m) []) s.numEvents f2.hasNext
    (begins_all h f2).2
  rw [events_names first c.1] at f3
  have hbig : decide (bytes.length > 50000000) = false := by rw [decide_eq_false_iff_not]; omega
  obtain ⟨g1, g2⟩ := fold_insert (fun h : RunHeader => h.run.toInt) (fun h => h.descr) (runHeadersIn cfg ((allPuts c.2).map fun p => (first, p))) [] List.Pairwise.nil
  rw [runs_names] at g2
  refine ⟨_, by
    unfold Shell.openFile
    rw [hd, hw, e1]
    simp only [hbig, Bool.not_false, Bool.and_true, e3, if_true, f1, f3]
    rfl, h, rfl, by simp, by simp, ⟨first, f2.close f4.files f4.index⟩, rfl, ?_, ?_⟩
  · simp only [LshPlace.total, List.map_cons, List.sum_cons, hn, lshEvents]
    omega
  · constructor
    · rw [List.pairwise_map]
      exact g1.imp fun h => by simpa [intLt] using h
    · intro n d k
      simp only [List.mem_map, Prod.mk.injEq, Prod.exists]
      have hc : ∀ n, (omFind intLt n ((eventDataIn cfg ((allPuts c.2).map fun p => (c.1, p))).foldl (fun m e => countUp e.1.run.toInt m)
          ((runHeadersIn cfg ((allPuts c.2).map fun p => (first, p))).foldl (fun m h => omInsert intLt h.run.toInt 0 m) []))).getD 0 =
          (lshEvents cfg c).countP fun e => decide (e.1.run.toInt = n) := by
        intro n
        rw [fold_countUp (fun e : EventData => e.1.run.toInt), find_zero n _ (fold_zeros (fun h : RunHeader => h.run.toInt) _ [] (by simp)), Nat.zero_add]
        rfl
      constructor
      · rintro ⟨a, b, hm, rfl, rfl, rfl⟩
        rw [g2] at hm
        exact ⟨by simpa using hm, hc _⟩
      · rintro ⟨hm, rfl⟩
        exact ⟨n, d, (g2 n d).2 (.inr ⟨by simp, hm⟩), rfl, rfl, hc n⟩

/-! ## Paths -/

theorem readUnsigned_decInt {n : Int} (h : InRange n) : readUnsigned (decInt n) = BitVec.ofInt 32 n := by
  unfold InRange at h
  unfold decInt
  split
  · rename_i hn
    have hlt : n.natAbs < 2 ^ 32 := by omega
    show (if digits 0 (dec n.natAbs) < 2 ^ 32 then -(if digits 0 (dec n.natAbs) < 2 ^ 32 then BitVec.ofNat 32 (digits 0 (dec n.natAbs)) else 0xffffffff) else (0xffffffff : W32)) = _
    rw [dec_value, if_pos hlt, if_pos hlt]
    apply BitVec.eq_of_toInt_eq
    rw [show n = -((n.natAbs : Nat) : Int) by omega, BitVec.ofInt_neg, BitVec.ofInt_natCast]
    simp
  · obtain ⟨k, rfl⟩ := Int.eq_ofNat_of_zero_le (show 0 ≤ n by omega)
    rw [Int.toNat_natCast, readUnsigned_dec _ (by omega), BitVec.ofInt_natCast]

theorem decInt_no_slash (n : Int) : 47 ∉ decInt n ∧ decInt n ≠ [] ∧ decInt n ≠ str ".." := by
  have hd : ∀ k : Nat, 47 ∉ dec k ∧ dec k ≠ str ".." := by
    intro k
    refine ⟨fun h => absurd (dec_digits k 47 h) (by decide), fun h => ?_⟩
    have := dec_digits k 46 (by rw [h]; decide)
    exact absurd this (by decide)
  unfold decInt
  rw [show str "-" = [45] by decide]
  split
  · refine ⟨?_, by simp, ?_⟩
    · intro h
      rcases List.mem_cons.1 h with h | h
      · exact absurd h (by decide)
      · exact (hd _).1 h
    · intro h
      rw [show str ".." = [46, 46] by decide] at h
      simp at h
  · exact ⟨(hd _).1, dec_ne_nil _, (hd _).2⟩

def StepInRange : LshStep → Prop
  | .up => True
  | .into n => InRange n

theorem step_text (x : LshStep) : 47 ∉ x.text ∧ x.text ≠ [] := by
  cases x with
  | up => exact ⟨by decide, by decide⟩
  | into n => exact ⟨(decInt_no_slash n).1, (decInt_no_slash n).2.1⟩

theorem pathText_parts (xs : List LshStep) : pathLoop [] (pathText xs) = xs.map LshStep.text := by
  induction xs with
  | nil => rfl
  | cons x xs ih =>
    obtain ⟨h1, h2⟩ := step_text x
    cases xs with
    | nil => exact pathLoop_end _ h1 h2
    | cons y ys =>
      show pathLoop [] (x.text ++ 47 :: pathText (y :: ys)) = _
      rw [pathLoop_slash _ h1 h2, ih]
      rfl

theorem Stands.fetch (hcodec : Lossless cfg.codec) {p : LshPlace} {s : Shell} (h : Stands cfg disk fuel p s) (run evt : Int) (h1 : InRange run) (h2 : InRange evt) :
    ∃ rd, s.fetch cfg disk p.file.1 run evt = .ok (eventAt cfg p.file run evt, { s with reader := rd }) ∧ Stands cfg disk fuel p { s with reader := rd } := by
  obtain ⟨first, hk⟩ := h.reader
  obtain ⟨rd, e1, e2⟩ := fetch_eq hcodec h.file s first hk run evt h1 h2
  exact ⟨rd, e1, h.file, h.position, h.short, h.range, ⟨first, e2⟩, h.withEvents, h.total, h.list⟩

theorem Stands.move {p : LshPlace} {s : Shell} (h : Stands cfg disk fuel p s) (place : List Int) (pos : List (Int × Str)) (hp : pos = spots cfg p.file place) (h3 : place.length ≤ 3)
    (hr : ∀ n ∈ place, InRange n) : Stands cfg disk fuel { p with place := place } { s with position := pos } :=
  ⟨h.file, hp, h3, hr, h.reader, h.withEvents, h.total, h.list⟩

theorem enter_step (hcodec : Lossless cfg.codec) {p : LshPlace} {s : Shell} (h : Stands cfg disk fuel p s) (x : LshStep) (hx : StepInRange x) :
    match stepTo cfg p.file p.place x with
    | none => s.enter cfg disk x.text = .ok none
    | some place => ∃ s', s.enter cfg disk x.text = .ok (some s') ∧ Stands cfg disk fuel { p with place := place } s' := by
  have hpos := h.position
  have hshort := h.short
  have hrange := h.range
  obtain ⟨file, before, place⟩ := p
  simp only at hpos hshort hrange ⊢
  cases x with
  | up =>
    simp only [stepTo, LshStep.text]
    match place, hpos, hshort, hrange with
    | [], hpos, _, _ =>
      simp only [if_true]
      unfold Shell.enter
      rw [if_pos rfl, hpos]
      rfl
    | [a], hpos, _, hr =>
      refine ⟨{ s with position := s.position.dropLast }, ?_, h.move [] _ (by rw [hpos]; rfl) (by simp) (by simp)⟩
      unfold Shell.enter
      rw [if_pos rfl, hpos]
      rfl
    | [a, b], hpos, _, hr =>
      refine ⟨{ s with position := s.position.dropLast }, ?_, h.move [a] _ (by rw [hpos]; rfl) (by simp) (fun n hn => hr n (by simp only [List.mem_cons, List.not_mem_nil, or_false] at hn ⊢; exact .inl hn))⟩
      unfold Shell.enter
      rw [if_pos rfl, hpos]
      rfl
    | [a, b, c], hpos, _, hr =>
      refine ⟨{ s with position := s.position.dropLast }, ?_, h.move [a, b] _ (by rw [hpos]; rfl) (by simp) (fun n hn => hr n (by
        simp only [List.mem_cons, List.not_mem_nil, or_false] at hn ⊢
        rcases hn with hn | hn
        · exact .inl hn
        · exact .inr (.inl hn)))⟩
      unfold Shell.enter
      rw [if_pos rfl, hpos]
      rfl
    | a :: b :: c :: d :: e, _, hs, _ => simp only [List.length_cons] at hs; omega
  | into n =>
    have hn : InRange n := hx
    have hu := readUnsigned_decInt hn
    have hi := inRange_toInt hn
    have hne := (decInt_no_slash n).2.2
    simp only [stepTo, LshStep.text]
    match place, hpos, hshort, hrange with
    | [], hpos, _, _ =>
      refine ⟨{ s with position := s.position ++ [(n, str "/run_" ++ decInt n)] }, ?_, h.move [n] _ (by rw [hpos]; rfl) (by simp) (by simpa using hn)⟩
      unfold Shell.enter
      rw [if_neg hne, hu, hpos]
      simp only [spots, hi]
    | [a], hpos, _, hr =>
      refine ⟨{ s with position := s.position ++ [(n, str "/evt_" ++ decInt n)] }, ?_, h.move [a, n] _ (by rw [hpos]; rfl) (by simp) (by
        intro m hm
        simp only [List.mem_cons, List.not_mem_nil, or_false] at hm
        rcases hm with rfl | rfl
        · exact hr m (by simp)
        · exact hn)⟩
      unfold Shell.enter
      rw [if_neg hne, hu, hpos]
      simp only [spots, hi]
    | [a, b], hpos, _, hr =>
      obtain ⟨rd, e1, e2⟩ := h.fetch hcodec a b (hr a (by simp)) (hr b (by simp))
      have hc : collectionAt cfg file a b n = (eventAt cfg file a b).bind fun e => e.2[(BitVec.ofInt 32 n : W32).toNat]? := by
        unfold collectionAt
        rw [BitVec.toNat_ofInt]
        rfl
      have he : s.enter cfg disk (decInt n) = (match (eventAt cfg file a b).bind fun e => e.2[(BitVec.ofInt 32 n : W32).toNat]? with
          | some c => .ok (some { s with reader := rd, position := s.position ++ [(n, str "/" ++ c.1)] })
          | none => .ok (some { s with reader := rd })) := by
        unfold Shell.enter
        rw [if_neg hne, hu]
        simp only [hpos, spots, e1, hi]
        cases eventAt cfg file a b with
        | none => rfl
        | some e =>
          simp only [Option.bind_some]
          cases e.2[(BitVec.ofInt 32 n : W32).toNat]? <;> rfl
      rw [← hc] at he
      cases hcol : collectionAt cfg file a b n with
      | none =>
        rw [hcol] at he
        simp only [hcol, Option.isSome_none, Bool.false_eq_true, if_false]
        exact ⟨_, he, e2⟩
      | some x =>
        rw [hcol] at he
        simp only [hcol, Option.isSome_some, if_true]
        refine ⟨_, he, e2.move [a, b, n] _ (by rw [hpos]; simp only [spots, hcol, Option.map_some, Option.getD_some]; rfl) (by simp) ?_⟩
        intro m hm
        simp only [List.mem_cons, List.not_mem_nil, or_false] at hm
        rcases hm with rfl | rfl | rfl
        · exact hr m (by simp)
        · exact hr m (by simp)
        · exact hn
    | [a, b, c], hpos, _, hr =>
      refine ⟨s, ?_, h⟩
      unfold Shell.enter
      rw [if_neg hne]
      simp only [hpos, spots]
    | a :: b :: c :: d :: e, _, hs, _ => simp only [List.length_cons] at hs; omega

theorem walk_path (hcodec : Lossless cfg.codec) (xs : List LshStep) (hx : ∀ x ∈ xs, StepInRange x) : ∀ (p : LshPlace) (s : Shell), Stands cfg disk fuel p s →
    match walk cfg p.file p.place xs with
    | none => s.enterAll cfg disk (xs.map LshStep.text) = .ok none
    | some place => ∃ s', s.enterAll cfg disk (xs.map LshStep.text) = .ok (some s') ∧ Stands cfg disk fuel { p with place := place } s' := by
  induction xs with
  | nil => intro p s h; exact ⟨s, rfl, h⟩
  | cons x xs ih =>
    intro p s h
    have h1 := enter_step hcodec h x (hx x (by simp))
    simp only [walk, List.map_cons, Shell.enterAll]
    cases hs : stepTo cfg p.file p.place x with
    | none =>
      rw [hs] at h1
      simp only at h1 ⊢
      rw [h1]
    | some place =>
      rw [hs] at h1
      obtain ⟨s', e1, e2⟩ := h1
      have h2 := ih (fun x hx' => hx x (List.mem_cons_of_mem _ hx')) _ _ e2
      simp only [e1]
      exact h2

/-! ## Calls -/

/-- `fun_print`, for a place in an event. -/
theorem print_at (hcodec : Lossless cfg.codec) {p : LshPlace} {s : Shell} (h : Stands cfg disk fuel p s) (n : Int) (hn : InRange n) (short : Bool) (run evt : Int) (rest : List Int)
    (hp : p.place = run :: evt :: rest) :
    ∃ out s', s.print cfg disk (decInt n) short = .ok (out, s') ∧ Contents cfg p.file run evt n short out ∧ Stands cfg disk fuel p s' := by
  have hr := h.range
  rw [hp] at hr
  obtain ⟨rd, e1, e2⟩ := h.fetch hcodec run evt (hr run (by simp)) (hr evt (by simp))
  have hpos : ∃ b c l, s.position = (0, p.file.1) :: (run, b) :: (evt, c) :: l := by
    rw [h.position, hp]
    cases rest with
    | nil => exact ⟨_, _, _, rfl⟩
    | cons x xs => exact ⟨_, _, _, rfl⟩
  obtain ⟨b, c, l, hpos⟩ := hpos
  have hc : collectionAt cfg p.file run evt n = (eventAt cfg p.file run evt).bind fun e => e.2[(BitVec.ofInt 32 n : W32).toNat]? := by
    unfold collectionAt
    rw [BitVec.toNat_ofInt]
    rfl
  refine ⟨match collectionAt cfg p.file run evt n with
    | some x => [.contents x.1 x.2 short]
    | none => [], { s with reader := rd }, ?_, rfl, e2⟩
  unfold Shell.print
  rw [hpos]
  simp only [e1, readUnsigned_decInt hn, hc]
  cases eventAt cfg p.file run evt with
  | none => simp [hpos]
  | some e =>
    simp only [Option.bind_some]
    cases e.2[(BitVec.ofInt 32 n : W32).toNat]? <;> simp [hpos]

theorem print_nothing {p : LshPlace} {s : Shell} (h : Stands cfg disk fuel p s) (n : Str) (short : Bool) (hp : p.place.length < 2) : s.print cfg disk n short = .ok ([], s) := by
  have hpos := h.position
  unfold Shell.print
  match hp' : p.place with
  | [] => rw [hp'] at hpos; rw [hpos]; rfl
  | [a] => rw [hp'] at hpos; rw [hpos]; rfl
  | a :: b :: c => rw [hp'] at hp; simp only [List.length_cons] at hp; omega

theorem ls_items (cols : List (Str × Collection)) : (lsItems cols).length = cols.length ∧ ∀ (i : Nat) x, cols[i]? = some x →
    (lsItems cols)[i]? = some (.collection i x.1 x.2.type x.2.elems.length) := by
  unfold lsItems
  refine ⟨by simp, fun i x hx => ?_⟩
  rw [List.getElem?_map, List.getElem?_zipIdx, hx]
  simp

theorem ls_at (hcodec : Lossless cfg.codec) {p : LshPlace} {s : Shell} (h : Stands cfg disk fuel p s) :
    ∃ out s', s.ls cfg disk fuel = .ok (out, s') ∧ Shown cfg p .ls out ∧ Stands cfg disk fuel p s' := by
  have hpos := h.position
  have hr := h.range
  have hshort := h.short
  match hp : p.place with
  | [] =>
    rw [hp] at hpos
    refine ⟨s.listRuns, s, ?_, ?_, h⟩
    · unfold Shell.ls
      rw [hpos]
      rfl
    · unfold Shown
      rw [hp]
      refine ⟨_, h.list, ?_⟩
      unfold Shell.listRuns
      simp only [h.withEvents, if_true, h.total, List.length_map, List.map_map]
      rfl
  | [run] =>
    rw [hp] at hpos hr
    obtain ⟨first, hk⟩ := h.reader
    obtain ⟨r, e1, e2, -⟩ := lshOpen_kept hcodec h.file first s.reader hk
    obtain ⟨r', e3, e4⟩ := lsEventLoop_all cfg run fuel r _ e2.hasNext (begins_all h.file e2).2
    refine ⟨((lshEvents cfg p.file).filter fun e => decide (e.1.run.toInt = run)).map fun e => .event e.1.evt.toInt e.2.length, { s with reader := r'.close }, ?_, ?_, h.file, h.position, h.short, h.range, ⟨first, e2.close e4.files e4.index⟩, h.withEvents, h.total, h.list⟩
    · unfold Shell.ls
      rw [hpos]
      rw [events_names first p.file.1] at e3
      simp only [spots, e1, e3, lshEvents]
    · unfold Shown
      rw [hp]
  | [run, evt] =>
    rw [hp] at hpos hr
    obtain ⟨rd, e1, e2⟩ := h.fetch hcodec run evt (hr run (by simp)) (hr evt (by simp))
    refine ⟨match eventAt cfg p.file run evt with
      | none => [.missing]
      | some e => lsItems e.2, { s with reader := rd }, ?_, ?_, e2⟩
    · unfold Shell.ls
      rw [hpos]
      simp only [spots, e1]
      cases eventAt cfg p.file run evt <;> simp [hpos, spots]
    · unfold Shown
      rw [hp]
      simp only
      cases eventAt cfg p.file run evt with
      | none => rfl
      | some e => exact ls_items e.2
  | [run, evt, n] =>
    obtain ⟨out, s', e1, e2, e3⟩ := print_at hcodec h n (hr n (by rw [hp]; simp)) true run evt [n] hp
    refine ⟨out, s', ?_, ?_, e3⟩
    · rw [hp] at hpos
      unfold Shell.ls
      rw [hpos]
      exact e1
    · unfold Shown
      rw [hp]
      exact e2
  | a :: b :: c :: d :: e => rw [hp] at hshort; simp only [List.length_cons] at hshort; omega

theorem dump_at (hcodec : Lossless cfg.codec) {p : LshPlace} {s : Shell} (h : Stands cfg disk fuel p s) (detailed : Bool) :
    ∃ out s', s.dump cfg disk fuel detailed = .ok (out, s') ∧ Shown cfg p (.dump detailed) out ∧ Stands cfg disk fuel p s' := by
  have hpos := h.position
  have hr := h.range
  have hshort := h.short
  match hp : p.place with
  | [] =>
    rw [hp] at hpos
    refine ⟨[], s, ?_, ?_, h⟩
    · unfold Shell.dump
      rw [hpos]
      rfl
    · unfold Shown
      rw [hp]
  | [run] =>
    rw [hp] at hpos hr
    obtain ⟨first, hk⟩ := h.reader
    obtain ⟨r, e1, e2, -⟩ := lshOpen_kept hcodec h.file first s.reader hk
    obtain ⟨r', e3, e4⟩ := dumpRunLoop_all cfg run fuel r _ false e2.hasNext (begins_all h.file e2).1
    refine ⟨((runHeadersIn cfg ((allPuts p.file.2).map fun x => (first, x))).find? fun h => decide (h.run.toInt = run)).toList.map .header, { s with reader := r'.close }, ?_, ?_, h.file, h.position, h.short, h.range, ⟨first, e2.close e4.files e4.index⟩, h.withEvents, h.total, h.list⟩
    · unfold Shell.dump
      rw [hpos]
      simp only [spots, e1, e3]
      rfl
    · unfold Shown
      rw [hp]
      exact ⟨first, rfl⟩
  | [run, evt] =>
    rw [hp] at hpos hr
    obtain ⟨rd, e1, e2⟩ := h.fetch hcodec run evt (hr run (by simp)) (hr evt (by simp))
    refine ⟨(eventAt cfg p.file run evt).toList.map fun e => .whole e detailed, { s with reader := rd }, ?_, ?_, e2⟩
    · unfold Shell.dump
      rw [hpos]
      simp only [spots, e1]
      cases eventAt cfg p.file run evt <;> simp [hpos, spots]
    · unfold Shown
      rw [hp]
  | [run, evt, n] =>
    obtain ⟨out, s', e1, e2, e3⟩ := print_at hcodec h n (hr n (by rw [hp]; simp)) false run evt [n] hp
    refine ⟨out, s', ?_, ?_, e3⟩
    · rw [hp] at hpos
      unfold Shell.dump
      rw [hpos]
      exact e1
    · unfold Shown
      rw [hp]
      exact e2
  | a :: b :: c :: d :: e => rw [hp] at hshort; simp only [List.length_cons] at hshort; omega

/-- Calls with numbers that can be stored and with files that can be shown. -/
def CallOk (cfg : RConfig) (disk : Str → Option (List Byte)) (fuel : Nat) : LshCall → Prop
  | .cd path => ∀ x ∈ path, StepInRange x
  | .cat _ n => InRange n
  | .open c => LshFile cfg disk fuel c
  | _ => True

theorem call_shown (hcodec : Lossless cfg.codec) {p : LshPlace} {s : Shell} (h : Stands cfg disk fuel p s) (call : LshCall) (hc : CallOk cfg disk fuel call) :
    match p.after cfg call with
    | none => s.command cfg disk fuel call.words = .ok none
    | some p' => ∃ out s', s.command cfg disk fuel call.words = .ok (some (out, s')) ∧ Shown cfg p call out ∧ Stands cfg disk fuel p' s' := by
  cases call with
  | ls =>
    obtain ⟨out, s', e1, e2, e3⟩ := ls_at hcodec h
    refine ⟨out, s', ?_, e2, e3⟩
    show (s.ls cfg disk fuel).map some = _
    rw [e1]
    rfl
  | cd path =>
    have hw := walk_path hcodec path hc p s h
    have hcmd : s.command cfg disk fuel (LshCall.cd path).words = (s.enterAll cfg disk (path.map LshStep.text)).map fun s => s.map fun s => ([], s) := by
      show (s.cd cfg disk (pathText path)).map _ = _
      unfold Shell.cd
      rw [pathText_parts]
    simp only [LshPlace.after]
    cases hx : walk cfg p.file p.place path with
    | none =>
      rw [hx] at hw
      simp only [Option.map_none]
      simp only at hw
      rw [hcmd, hw]
      rfl
    | some place =>
      rw [hx] at hw
      obtain ⟨s', e1, e2⟩ := hw
      simp only [Option.map_some]
      refine ⟨[], s', by rw [hcmd, e1]; rfl, ?_, e2⟩
      unfold Shown
      rfl
  | cat short n =>
    have hcmd : s.command cfg disk fuel (LshCall.cat short n).words = (s.print cfg disk (decInt n) short).map some := by cases short <;> rfl
    simp only [LshPlace.after]
    match hp : p.place with
    | [] =>
      have := print_nothing h (decInt n) short (by rw [hp]; simp)
      exact ⟨[], s, by rw [hcmd, this]; rfl, by unfold Shown; rw [hp], h⟩
    | [a] =>
      have := print_nothing h (decInt n) short (by rw [hp]; simp)
      exact ⟨[], s, by rw [hcmd, this]; rfl, by unfold Shown; rw [hp], h⟩
    | run :: evt :: rest =>
      obtain ⟨out, s', e1, e2, e3⟩ := print_at hcodec h n hc short run evt rest hp
      exact ⟨out, s', by rw [hcmd, e1]; rfl, by unfold Shown; rw [hp]; exact e2, e3⟩
  | dump detailed =>
    obtain ⟨out, s', e1, e2, e3⟩ := dump_at hcodec h detailed
    refine ⟨out, s', ?_, e2, e3⟩
    have hcmd : s.command cfg disk fuel (LshCall.dump detailed).words = (s.dump cfg disk fuel detailed).map some := by cases detailed <;> rfl
    rw [hcmd, e1]
    rfl
  | «open» c =>
    obtain ⟨first, hk⟩ := h.reader
    obtain ⟨r, e1, e2, -⟩ := lshOpen_kept hcodec hc first s.reader hk
    obtain ⟨s', e3, e4⟩ := open_stands hcodec hc s (p.file :: p.before) h.withEvents h.total ⟨first, r, e1, e2⟩
    refine ⟨[], s', ?_, by unfold Shown; rfl, e4⟩
    show (s.openFile cfg disk fuel c.1).map _ = _
    rw [e3]
    rfl

theorem session_shown (hcodec : Lossless cfg.codec) (calls : List LshCall) (hc : ∀ c ∈ calls, CallOk cfg disk fuel c) : ∀ (p : LshPlace) (s : Shell), Stands cfg disk fuel p s →
    ∃ outs, s.session cfg disk fuel (calls.map LshCall.words) = .ok outs ∧ AllShown cfg p calls outs := by
  induction calls with
  | nil => intro p s _; exact ⟨[], rfl, rfl⟩
  | cons c calls ih =>
    intro p s h
    have h1 := call_shown hcodec h c (hc c (by simp))
    simp only [AllShown, List.map_cons, Shell.session]
    cases hx : p.after cfg c with
    | none =>
      rw [hx] at h1
      simp only at h1
      exact ⟨[], by rw [h1], rfl⟩
    | some p' =>
      rw [hx] at h1
      obtain ⟨out, s', e1, e2, e3⟩ := h1
      obtain ⟨outs, e4, e5⟩ := ih (fun c h => hc c (List.mem_cons_of_mem _ h)) p' s' e3
      refine ⟨out :: outs, ?_, out, outs, rfl, e2, e5⟩
      rw [e1]
      simp only [e4]
      rfl

/-- **C111**, as far as it holds. The shell is started with a file, and the user gives any number of commands: lists, moves to other places with paths of any length, prints collections, runs and
events, and opens other files. At the start the numbers of runs and events of the file are shown. Every command, until the program is left, shows what is at the place: in a file, the runs that have a
header, in order, with description and number of events; in a run, its events in the order of the file with the numbers of collections; in an event, the collections with names, types and sizes, or
that there is no such event; and collections as they are read. Paths lead into any run or event, and into those collections that exist, and `..` leads back.

Missing: large files (`C111_fails_large`). The number of events in a file includes those of all files that were opened before (`C111_fails_second_file`). Runs without header are not listed
(`C111_fails_no_header`). Lines without words and commands without argument have undefined behaviour (`C111_fails_blank`). -/
theorem C111_session_partial (cfg : RConfig) (hcodec : Lossless cfg.codec) (disk : Str → Option (List Byte)) (fuel : Nat) (c : Str × List Session) (h : LshFile cfg disk fuel c)
    (hd : DirectOk c.2) (calls : List LshCall) (hc : ∀ x ∈ calls, CallOk cfg disk fuel x) :
    ∃ k outs l, lsh cfg disk fuel c.1 (calls.map LshCall.words) = .ok ([.top k (some (lshEvents cfg c).length)] :: outs) ∧ RunList (runsOf (allPuts c.2)) (lshEvents cfg c) l ∧ k = l.length ∧
      AllShown cfg { file := c } calls outs := by
  obtain ⟨r, e1, e2⟩ := lshOpen_new hcodec h hd
  obtain ⟨s, e3, e4⟩ := open_stands hcodec h {} [] rfl rfl ⟨c.1, r, e1, e2⟩
  obtain ⟨outs, e5, e6⟩ := session_shown hcodec calls hc _ _ e4
  refine ⟨s.runs.length, outs, _, ?_, e4.list, by simp, e6⟩
  unfold lsh
  rw [e3]
  simp only [e5, e4.withEvents, if_true, e4.total]
  simp only [LshPlace.total, List.map_cons, List.map_nil, List.sum_cons, List.sum_nil, Nat.add_zero]
  rfl

/-- **C111** fails for the number of events: when a second file has been opened, the number of events that is shown is that of both files. -/
theorem C111_fails_second_file (cfg : RConfig) (hcodec : Lossless cfg.codec) (disk : Str → Option (List Byte)) (fuel : Nat) (c c' : Str × List Session) (h : LshFile cfg disk fuel c)
    (hd : DirectOk c.2) (h' : LshFile cfg disk fuel c') :
    ∃ k k' runs, lsh cfg disk fuel c.1 [[str "open", c'.1], [str "ls"]] =
      .ok [[.top k (some (lshEvents cfg c).length)], [], .top k' (some ((lshEvents cfg c').length + (lshEvents cfg c).length)) :: runs] := by
  obtain ⟨k, outs, l, h1, -, -, h2⟩ := C111_session_partial cfg hcodec disk fuel c h hd [.open c', .ls] (by
    intro x hx
    simp only [List.mem_cons, List.not_mem_nil, or_false] at hx
    rcases hx with rfl | rfl
    · exact h'
    · trivial)
  obtain ⟨o1, r1, rfl, g1, o2, r2, rfl, g2, rfl⟩ := h2
  have g1 : o1 = [] := g1
  obtain ⟨l', -, rfl⟩ := g2
  subst g1
  refine ⟨k, l'.length, l'.map fun x => .run x.1 x.2.1 (some x.2.2), ?_⟩
  show lsh cfg disk fuel c.1 ([LshCall.open c', .ls].map LshCall.words) = _
  rw [h1]
  rfl

/-- **C111** fails for runs without header: whatever events there are in a file without run headers, no run is listed. -/
theorem C111_fails_no_header (cfg : RConfig) (hcodec : Lossless cfg.codec) (disk : Str → Option (List Byte)) (fuel : Nat) (c : Str × List Session) (h : LshFile cfg disk fuel c)
    (hd : DirectOk c.2) (hr : runsOf (allPuts c.2) = []) :
    lsh cfg disk fuel c.1 [[str "ls"]] = .ok [[.top 0 (some (lshEvents cfg c).length)], [.top 0 (some (lshEvents cfg c).length)]] := by
  obtain ⟨k, outs, l, h1, h2, rfl, h3⟩ := C111_session_partial cfg hcodec disk fuel c h hd [.ls] (by
    intro x hx
    rw [List.mem_singleton.1 hx]
    trivial)
  have hnil : ∀ l, RunList (runsOf (allPuts c.2)) (lshEvents cfg c) l → l = [] := by
    intro l hl
    cases l with
    | nil => rfl
    | cons x l =>
      have := ((hl.entries x.1 x.2.1 x.2.2).1 (by simp)).1
      rw [hr] at this
      cases this
  obtain ⟨o1, r1, rfl, ⟨l', g1, rfl⟩, rfl⟩ := h3
  rw [hnil l h2, hnil l' g1] at h1
  exact h1

/-- **C111** fails for large files: their events are not counted, and those of all files that are opened afterwards are not either. -/
theorem C111_fails_large (cfg : RConfig) (disk : Str → Option (List Byte)) (fuel : Nat) (s : Shell) (large : Str) (bytes : List Byte) (hb : disk large = some bytes) (hl : bytes.length > 50000000) :
    ∀ (names : List Str) (s' : Shell), (large :: names).foldlM (fun s n => s.openFile cfg disk fuel n) s = .ok s' →
      s'.listRuns = .top s'.runs.length none :: s'.runs.map fun x => .run x.1 x.2 none := by
  have key : ∀ (s : Shell) (n : Str) (s' : Shell), s.openFile cfg disk fuel n = .ok s' →
      (s.withEvents = false ∨ (∃ bytes, disk n = some bytes ∧ bytes.length > 50000000)) → s'.withEvents = false := by
    intro s n s' h hw
    unfold Shell.openFile at h
    rcases hw with hw | ⟨b, h1, h2⟩
    · simp only [hw, Bool.false_and] at h
      split at h
      · cases h
      · split at h
        · cases h
        · simp only [Bool.false_eq_true, if_false] at h
          cases h
          rfl
    · simp only [h1, decide_eq_true h2, Bool.not_true, Bool.and_false] at h
      split at h
      · cases h
      · split at h
        · cases h
        · simp only [Bool.false_eq_true, if_false] at h
          cases h
          rfl
  have all : ∀ (names : List Str) (s s' : Shell), names.foldlM (fun s n => s.openFile cfg disk fuel n) s = .ok s' → s.withEvents = false → s'.withEvents = false := by
    intro names
    induction names with
    | nil => intro s s' h hw; cases h; exact hw
    | cons n names ih =>
      intro s s' h hw
      rw [List.foldlM_cons] at h
      cases ho : s.openFile cfg disk fuel n with
      | error e => rw [ho] at h; cases h
      | ok s1 =>
        rw [ho] at h
        exact ih s1 s' h (key s n s1 ho (.inl hw))
  intro names s' h
  rw [List.foldlM_cons] at h
  cases ho : s.openFile cfg disk fuel large with
  | error e => rw [ho] at h; cases h
  | ok s1 =>
    rw [ho] at h
    have hw := all names s1 s' h (key s large s1 ho (.inr ⟨bytes, hb, hl⟩))
    unfold Shell.listRuns
    simp [hw]

/-- **C111** fails for lines without words and for commands without argument. -/
theorem C111_fails_blank (cfg : RConfig) (disk : Str → Option (List Byte)) (fuel : Nat) (s : Shell) :
    ∀ words ∈ [[], [str "cd"], [str "cl"], [str "print"], [str "cat"], [str "open"], [str "file"]], s.command cfg disk fuel words = .error .ub := by
  intro words hw
  simp only [List.mem_cons, List.not_mem_nil, or_false] at hw
  rcases hw with rfl | rfl | rfl | rfl | rfl | rfl | rfl <;> rfl

/-- **C111** fails for files that do not exist: the exception is not caught. -/
theorem C111_fails_missing_file (cfg : RConfig) (disk : Str → Option (List Byte)) (fuel : Nat) (s : Shell) (name : Str) (h : disk name = none) :
    s.command cfg disk fuel [str "open", name] = .error .notOpen := by
  show (s.openFile cfg disk fuel name).map _ = _
  unfold Shell.openFile lshOpen
  rw [h]
  rfl

/-! ## Cases -/

/-- Events of two runs, one of which has a header. -/
def lshSessions : List Session := [⟨false, [.run (runHeaderOf 3) []]⟩, ⟨true, [.event { run := 4, evt := 0 } [] ([], []), .event { run := 3, evt := 9 } tinyCols ([], [])]⟩]

theorem lshSessions_ok : SessionsOk sampleCfg.codec sampleCfg.std lshSessions := by
  refine ⟨?_, ⟨_, _, rfl, by simp⟩, by decide⟩
  intro s hs
  have h := directSessions_ok
  simp only [lshSessions, List.mem_cons, List.not_mem_nil, or_false] at hs
  rcases hs with rfl | rfl
  · refine ⟨?_, by decide +kernel⟩
    have h1 := (h.each _ (by simp only [directSessions]; exact .head _)).puts
    intro p hp
    exact h1 p (by rw [List.mem_singleton.1 hp]; simp)
  · exact h.each _ (by simp [directSessions])

theorem lshSessions_storable : ∀ h cols buf, Put.event h cols buf ∈ allPuts lshSessions → Storable sampleCfg.std sampleCfg.ignoreNull [] sampleCfg.wanted h cols := by
  intro h cols buf hm
  apply directSessions_storable h cols buf
  simp only [allPuts, lshSessions, directSessions, List.flatMap_cons, List.flatMap_nil, List.append_nil, List.nil_append, List.mem_append] at hm ⊢
  rcases hm with hm | hm
  · simp at hm
  · exact .inr hm

theorem lshSessions_direct : DirectOk lshSessions := by
  refine ⟨?_, ?_⟩
  · intro p hp _
    simp only [allPuts, lshSessions, List.flatMap_cons, List.flatMap_nil, List.append_nil, List.mem_append, List.mem_cons, List.not_mem_nil, or_false] at hp
    rcases hp with rfl | rfl | rfl <;> (simp_all [Put.isEvent, Put.key]; try decide)
  · intro s hs
    simp only [lshSessions, List.mem_cons, List.not_mem_nil, or_false] at hs
    rcases hs with rfl | rfl
    · left; decide +kernel
    · exact directSessions_direct.index _ (by simp [directSessions])

theorem lshSessions_file : fileAfter sampleCfg.codec sampleCfg.std lshSessions = .ok (some (fileOfSessions lshSessions)) ∧ (fileOfSessions lshSessions).length ≤ 50000000 := by
  obtain ⟨cs, last, f, bytes, -, h1, -⟩ := fileAfter_content sampleCfg.codec idCodec_lossless sampleCfg.std lshSessions lshSessions_ok
  have h2 : fileOfSessions lshSessions = bytes := by
    have h1 : fileAfter idCodec ieee lshSessions = .ok (some bytes) := h1
    unfold fileOfSessions
    rw [h1]
  rw [h2]
  refine ⟨h1, ?_⟩
  rw [← h2]
  decide +kernel

def lshDisk (n : Str) : Option (List Byte) := if n = str "a" ∨ n = str "b" then some (fileOfSessions lshSessions) else none

theorem lshDisk_file (n : Str) (h : n = str "a" ∨ n = str "b") : LshFile sampleCfg lshDisk 9 (n, lshSessions) :=
  ⟨lshSessions_ok, lshSessions_storable, ⟨_, by unfold lshDisk; rw [if_pos h], lshSessions_file.1, lshSessions_file.2⟩, (by decide : (allPuts lshSessions).length < 9)⟩

/-- Lists at all places, and a second file. -/
example : ∃ k outs l, lsh sampleCfg lshDisk 9 (str "a") ([.ls, .cd [.into 3, .into 9], .ls, .cat true 0, .cd [.into 0], .ls, .cd [.up, .up, .up], .open (str "b", lshSessions), .ls,
        .cd [.into 4, .into 0], .dump true].map LshCall.words) =
        .ok ([.top k (some (lshEvents sampleCfg (str "a", lshSessions)).length)] :: outs) ∧
      RunList (runsOf (allPuts lshSessions)) (lshEvents sampleCfg (str "a", lshSessions)) l ∧ k = l.length ∧
      AllShown sampleCfg { file := (str "a", lshSessions) } [.ls, .cd [.into 3, .into 9], .ls, .cat true 0, .cd [.into 0], .ls, .cd [.up, .up, .up], .open (str "b", lshSessions), .ls,
        .cd [.into 4, .into 0], .dump true] outs := by
  refine C111_session_partial sampleCfg idCodec_lossless lshDisk 9 (str "a", lshSessions) (lshDisk_file _ (.inl rfl)) lshSessions_direct _ ?_
  have hr : ∀ n : Int, n = 0 ∨ n = 3 ∨ n = 4 ∨ n = 9 → InRange n := by
    unfold InRange
    omega
  simp only [List.mem_cons, List.not_mem_nil, or_false, forall_eq_or_imp, forall_eq, CallOk, StepInRange, and_true, true_and]
  exact ⟨⟨hr 3 (by simp), hr 9 (by simp)⟩, hr 0 (by simp), hr 0 (by simp), lshDisk_file _ (.inr rfl), hr 4 (by simp), hr 0 (by simp)⟩

/-- The words of a path. -/
example : (LshCall.cd [.into 3, .up, .into (-4), .into 0]).words = [str "cd", str "3/../-4/0"] := by decide +kernel

/-- The runs of the file. -/
example : runsOf (allPuts lshSessions) = [(3, str "test beam")] := by decide

/-- The numbers in what is printed. -/
def lshNumbers : LshItem → List Int
  | .top n k => [n, (k.map Int.ofNat).getD (-1)]
  | .run n _ k => [n, (k.map Int.ofNat).getD (-1)]
  | .event n k => [n, k]
  | .collection i _ _ n => [i, n]
  | .missing => [-1]
  | .contents _ c _ => [c.elems.length]
  | .header h => [h.run.toInt]
  | .whole e _ => [e.1.run.toInt, e.1.evt.toInt]

/-- What is printed for a small file: two events, one of which belongs to a run without header. -/
example :
    let file := fileOfSessions [⟨false, [.run { run := 3 } [], .event { run := 4, evt := 0 } [] ([], []), .event { run := 3, evt := 9 } [] ([], [])]⟩]
    (lsh sampleCfg (fun n => if n = str "a" then some file else none) 9 (str "a") [[str "ls"], [str "cd", str "3"], [str "ls"], [str "cd", str "../4/1"], [str "ls"]]).toOption.map
      (fun outs => outs.map fun o => o.map lshNumbers) = some [[[1, 2]], [[1, 2], [3, 1]], [], [[9, 0]], [], [[-1]]] := by
  decide +kernel

theorem pathLoop_double (b : Str) : ∀ (a part : Str), pathLoop part (a ++ 47 :: 47 :: b) = pathLoop part (a ++ 47 :: b) := by
  intro a
  induction a with
  | nil => intro part; by_cases h : part = [] <;> simp [pathLoop, h]
  | cons c a ih => intro part; simp only [List.cons_append, pathLoop, ih]

theorem pathLoop_last : ∀ (a part : Str), pathLoop part (a ++ [47]) = pathLoop part a := by
  intro a
  induction a with
  | nil => intro part; simp [pathLoop]
  | cons c a ih => intro part; simp only [List.cons_append, pathLoop, ih]

/-- C111: slashes at the beginning or the end of a path, or several at one place, mean nothing: the command `cd` does the same without them. -/
theorem C111_slashes (cfg : RConfig) (disk : Str → Option (List Byte)) (s : Shell) (a b : Str) :
    s.cd cfg disk (47 :: a) = s.cd cfg disk a ∧ s.cd cfg disk (a ++ [47]) = s.cd cfg disk a ∧ s.cd cfg disk (a ++ 47 :: 47 :: b) = s.cd cfg disk (a ++ 47 :: b) := by
  refine ⟨?_, ?_, ?_⟩
  · simp [Shell.cd, pathLoop]
  · simp [Shell.cd, pathLoop_last]
  · simp [Shell.cd, pathLoop_double]

end Props
