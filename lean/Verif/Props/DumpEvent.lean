import Verif.Util.DumpEvent
import Verif.Util.TextLemmas
import Verif.Props.Skip
import Verif.Props.Direct
/-
C101: the program dumpevent.
-/
namespace Props
open Sio Spec Lcio Util

theorem int_of_long (m n : Int) (h1 : -2 ^ 31 ≤ n) (h2 : n < 2 ^ 31) (h : (if m < -2 ^ 63 ∨ 2 ^ 63 ≤ m then .error .ub else .ok m : Except Err Int) = .ok n) :
    (if m < -2 ^ 31 ∨ 2 ^ 31 ≤ m then .error .ub else .ok m : Except Err Int) = .ok n := by
  by_cases hm : m < -2 ^ 63 ∨ 2 ^ 63 ≤ m
  · rw [if_pos hm] at h; cases h
  · rw [if_neg hm] at h
    have := Except.ok.inj h
    subst this
    rw [if_neg (by omega)]

theorem atoi_atol {s : Str} {n : Int} (h : atol s = .ok n) (h1 : -2 ^ 31 ≤ n) (h2 : n < 2 ^ 31) : atoi s = .ok n := int_of_long _ n h1 h2 h

/-- A number that is written as the streams of C++ write it is read by the program. -/
theorem atoi_decInt (n : Int) (h1 : -2 ^ 31 ≤ n) (h2 : n < 2 ^ 31) : atoi (decInt n) = .ok n := by
  refine atoi_atol ?_ h1 h2
  unfold decInt
  split
  · have := atol_neg n.natAbs (by omega)
    rw [this]
    congr 1
    omega
  · have := atol_dec n.toNat (by omega)
    rw [this]
    congr 1
    omega

/-- A name as it can be given to the program. -/
def PlainName (s : Str) : Prop := s ≠ [] ∧ ∀ c ∈ s, isSpace c = false

theorem wordsLoop_plain : ∀ (s w rest : Str), (∀ c ∈ s, isSpace c = false) → wordsLoop w (s ++ rest) = wordsLoop (w ++ s) rest
  | [], w, rest, _ => by simp
  | c :: s, w, rest, h => by
    rw [List.cons_append, wordsLoop, if_neg (by simp [h c List.mem_cons_self]), wordsLoop_plain s _ rest fun c hc => h c (List.mem_cons_of_mem _ hc)]
    simp

/-- The names in the variable are the ones that the user has written, with one blank behind each. -/
theorem words_blanks (names : List Str) (h : ∀ s ∈ names, PlainName s) : words (names.flatMap fun s => s ++ str " ") = names := by
  unfold words
  induction names with
  | nil => rfl
  | cons s names ih =>
    rw [List.flatMap_cons, List.append_assoc, wordsLoop_plain s [] _ (h s List.mem_cons_self).2, List.nil_append]
    show wordsLoop s (32 :: _) = _
    rw [wordsLoop, if_pos (by decide), if_neg (h s List.mem_cons_self).1]
    exact congrArg _ (ih fun s hs => h s (List.mem_cons_of_mem _ hs))

/-- What is delivered for the events in a file, one after the other. -/
def eventsIn (cfg : RConfig) (name : Str) (ps : List Put) : List (Option Delivery) := (ps.filter Put.isEvent).map (delivery cfg name)

theorem serve_event (cfg : RConfig) (name : Str) (n : Nat) (ps : List Put) :
    serve cfg [.event] (afterEvents n (ps.map fun p => (name, p))) = [((eventsIn cfg name ps)[n]?).join] := by
  unfold eventsIn
  induction ps generalizing n with
  | nil => cases n <;> simp [afterEvents, serve]
  | cons p ps ih =>
    rw [List.map_cons]
    cases n with
    | zero =>
      have i0 := ih 0
      simp only [afterEvents] at i0 ⊢
      cases hp : p.isEvent with
      | true => simp [serve, Get.wants, hp]
      | false =>
        rw [List.filter_cons, if_neg (by simp [hp]), ← i0]
        unfold serve
        rw [List.dropWhile_cons, if_pos (by simp [Get.wants, hp])]
    | succ n =>
      unfold afterEvents
      cases hp : p.isEvent with
      | true => simp only [if_true, List.filter_cons, hp, List.map_cons, List.getElem?_cons_succ]; exact ih n
      | false =>
        rw [List.filter_cons, if_neg (by simp)]
        simp only [hp]
        exact ih (n + 1)

/-- What the program does with a file that is read from its beginning. -/
theorem dump_nth (cfg : RConfig) (disk : Str → Option (List Byte)) (env : Option Str) (name : Str) (bytes : List Byte) (n : Nat) (h1 : 1 ≤ n) (h2 : n < 2 ^ 31)
    (hd : disk name = some bytes) (r r' : Reader) (ho : Reader.openFiles (dumpConfig cfg env) false [(name, bytes)] = (.ok (), r))
    (hs : r.skipNEvents ((n - 1 : Nat) : Int) = (.ok (), r')) : dumpMain cfg disk env [name, decInt n] = dumpResult (r'.readNextEvent (dumpConfig cfg env)).1 := by
  have ha := atoi_decInt (n : Int) (by omega) (by omega)
  have e : ((n - 1 : Nat) : Int) = (n : Int) - 1 := by omega
  rw [e] at hs
  simp only [dumpMain]
  rw [ha]
  simp only
  unfold dumpNth
  rw [if_neg (by omega), hd]
  simp only
  rw [ho]
  simp only
  rw [hs]

theorem dumpConfig_std (cfg : RConfig) (env : Option Str) : (dumpConfig cfg env).std = cfg.std ∧ (dumpConfig cfg env).codec = cfg.codec ∧ (dumpConfig cfg env).ignoreNull = cfg.ignoreNull := by
  cases env <;> exact ⟨rfl, rfl, rfl⟩

/-- **C101** for the `n`th event of a file that LCIO wrote, as far as it holds: the program prints it; and it says that it is not there if there is exactly one event less.

Missing: numbers that are larger, `C101_fails_beyond`, and files that are not there, `C101_fails_without_file`. -/
theorem C101_nth_partial (cfg : RConfig) (env : Option Str) (hcodec : Lossless cfg.codec) (ss : List Session) (hs : SessionsOk cfg.codec cfg.std ss)
    (hl : Loadable (dumpConfig cfg env) (allPuts ss)) (name : Str) (n : Nat) (h1 : 1 ≤ n) (h2 : n < 2 ^ 31) :
    ∃ bytes, fileAfter cfg.codec cfg.std ss = .ok (some bytes) ∧ ∀ disk, disk name = some bytes →
      (∀ d, (eventsIn (dumpConfig cfg env) name (allPuts ss))[n - 1]? = some d → ∃ e, d = some (.event e) ∧ dumpMain cfg disk env [name, decInt n] = .ok (.event e)) ∧
      (n = (eventsIn (dumpConfig cfg env) name (allPuts ss)).length + 1 → dumpMain cfg disk env [name, decInt n] = .ok .notFound) := by
  obtain ⟨e1, e2, -⟩ := dumpConfig_std cfg env
  have hlen : (eventsIn (dumpConfig cfg env) name (allPuts ss)).length = countEvents ((allPuts ss).map fun p => (name, p)) := by
    unfold eventsIn countEvents
    rw [List.length_map, List.countP_map, List.countP_eq_length_filter]
    rfl
  by_cases hn : n - 1 ≤ (eventsIn (dumpConfig cfg env) name (allPuts ss)).length
  · rw [hlen] at hn
    obtain ⟨bytes, r, r', b1, b2, b3, -, b5⟩ := C34_skip_partial (dumpConfig cfg env) (by rw [e2]; exact hcodec) ss (by rw [e1, e2]; exact hs) hl name [] [.event] (n - 1) (by simp [serve]) hn
    rw [e1, e2] at b1
    refine ⟨bytes, b1, ?_⟩
    intro disk hd
    rw [dump_nth cfg disk env name bytes n h1 h2 hd r r' b2 b3]
    have b6 := b5
    rw [show remaining [] ((allPuts ss).map fun p => (name, p)) = (allPuts ss).map fun p => (name, p) from rfl, serve_event] at b6
    have key : Get.call (dumpConfig cfg env) r' .event = (match r'.readNextEvent (dumpConfig cfg env) with
      | (.error e, r) => (.error e, r)
      | (.ok e, r) => (.ok (e.map .event), r)) := rfl
    unfold gets at b6
    rw [key] at b6
    cases hr : r'.readNextEvent (dumpConfig cfg env) with
    | mk res r2 =>
    rw [hr] at b6
    cases res with
    | error e => cases b6
    | ok o =>
      cases o with
      | none =>
        simp only [Option.map_none] at b6
        have b7 := List.cons.inj (Except.ok.inj b6)
        constructor
        · intro d hd'
          rw [hd'] at b7
          have : d = none := by simpa using b7.1.symm
          subst this
          obtain ⟨p, hp, hp'⟩ := List.mem_map.1 (List.mem_of_getElem? hd')
          exact absurd hp' (hl p (List.mem_filter.1 hp).1 name)
        · intro _; rfl
      | some e =>
        simp only [Option.map_some, gets] at b6
        have b7 := List.cons.inj (Except.ok.inj b6)
        constructor
        · intro d hd'
          rw [hd'] at b7
          exact ⟨e, by simpa using b7.1.symm, rfl⟩
        · intro hn'
          rw [List.getElem?_eq_none (by omega)] at b7
          cases b7.1
  · obtain ⟨bytes, b1, -⟩ := holds_sessions cfg hcodec ss hs
    refine ⟨bytes, b1, fun disk hd => ⟨?_, ?_⟩⟩
    · intro d hd'
      rw [List.getElem?_eq_none (by omega)] at hd'
      cases hd'
    · intro h; omega

/-- **C101** fails for larger numbers: the program does not say that the event is not there, it ends with an exception that it does not catch. -/
theorem C101_fails_beyond (cfg : RConfig) (env : Option Str) (hcodec : Lossless cfg.codec) (ss : List Session) (hs : SessionsOk cfg.codec cfg.std ss)
    (hl : Loadable (dumpConfig cfg env) (allPuts ss)) (name : Str) (n : Nat) (h1 : (allPuts ss).countP Put.isEvent + 1 < n) (h2 : n < 2 ^ 31) :
    ∃ bytes, fileAfter cfg.codec cfg.std ss = .ok (some bytes) ∧ ∀ disk, disk name = some bytes → dumpMain cfg disk env [name, decInt n] = .error .badState := by
  obtain ⟨e1, e2, -⟩ := dumpConfig_std cfg env
  obtain ⟨bytes, b1, -⟩ := holds_sessions cfg hcodec ss hs
  refine ⟨bytes, b1, fun disk hd => ?_⟩
  obtain ⟨r, r', b2, b3, b4⟩ := C34_fails_at_end (dumpConfig cfg env) (by rw [e2]; exact hcodec) [(name, bytes)] (name, ss) []
    (by rw [e1, e2]; exact Lcio.All2.cons ⟨rfl, b1, .inl hs⟩ (Lcio.All2.nil _)) (by intro c hc; simp at hc; subst hc; exact hl) (n - 1) (by simp only; omega) .event
  rw [dump_nth cfg disk env name bytes n (by omega) h2 hd r r' b2 b3]
  unfold Get.call at b4
  cases hr : r'.readNextEvent (dumpConfig cfg env) with
  | mk res r2 =>
    rw [hr] at b4
    cases res with
    | error e => cases b4; rfl
    | ok o => cases b4

/-- **C101** fails for files that are not there: the exception is not an `IOException`, so that the program does not catch it. -/
theorem C101_fails_without_file (cfg : RConfig) (env : Option Str) (disk : Str → Option (List Byte)) (name : Str) (hd : disk name = none) (run evt : Int)
    (h1 : -2 ^ 31 ≤ run ∧ run < 2 ^ 31) (h2 : -2 ^ 31 ≤ evt ∧ evt < 2 ^ 31) : dumpMain cfg disk env [name, decInt run, decInt evt] = .error .notOpen ∧
    (1 ≤ evt → dumpMain cfg disk env [name, decInt evt] = .error .notOpen) := by
  constructor
  · simp only [dumpMain]
    rw [atoi_decInt run h1.1 h1.2]
    simp only
    rw [atoi_decInt evt h2.1 h2.2]
    simp only [dumpRunEvent, hd]
  · intro h
    simp only [dumpMain]
    rw [atoi_decInt evt h2.1 h2.2]
    simp only [dumpNth, hd]
    rw [if_neg (by omega)]

/-- **C101** for the event with given numbers, as far as it holds: if there is exactly one in the file then the program prints it; if there is none then it says so.

Missing: negative event numbers, `C30_fails_for_negative_event`, and files as described with C28. -/
theorem C101_direct_partial (cfg : RConfig) (env : Option Str) (hcodec : Lossless cfg.codec) (ss : List Session) (hs : SessionsOk cfg.codec cfg.std ss) (hd : DirectOk ss)
    (hst : ∀ h cols buf, Put.event h cols buf ∈ allPuts ss → Storable cfg.std cfg.ignoreNull [] (dumpConfig cfg env).wanted h cols) (name : Str)
    (run evt : Int) (h1 : -2 ^ 31 ≤ run ∧ run < 2 ^ 31) (h2 : 0 ≤ evt ∧ evt < 2 ^ 31) (more : List Str) :
    ∃ bytes, fileAfter cfg.codec cfg.std ss = .ok (some bytes) ∧ (bytes.length < 2 ^ 31 → ∀ disk, disk name = some bytes →
      ((∀ h cols buf, Put.event h cols buf ∈ allPuts ss → ¬(h.run.toInt = run ∧ h.evt.toInt = evt)) →
        dumpMain cfg disk env (name :: decInt run :: decInt evt :: more) = .ok .notFound) ∧
      (∀ h cols buf, Put.event h cols buf ∈ allPuts ss → h.run.toInt = run → h.evt.toInt = evt → ∃ e h' cols' buf', Put.event h' cols' buf' ∈ allPuts ss ∧
        h'.run.toInt = run ∧ h'.evt.toInt = evt ∧ delivery (dumpConfig cfg env) name (.event h' cols' buf') = some (.event e) ∧
        dumpMain cfg disk env (name :: decInt run :: decInt evt :: more) = .ok (.event e))) := by
  obtain ⟨e1, e2, e3⟩ := dumpConfig_std cfg env
  obtain ⟨bytes, b1, b2⟩ := C30_direct_is_search_partial (dumpConfig cfg env) (by rw [e2]; exact hcodec) ss (by rw [e1, e2]; exact hs) hd (by rw [e1, e3]; exact hst) name
  rw [e1, e2] at b1
  refine ⟨bytes, b1, fun hlen disk hdk => ?_⟩
  obtain ⟨r, r', b3, -, b5⟩ := b2 hlen
  have he : (BitVec.ofInt 32 evt).toInt = evt := by rw [BitVec.toInt_ofInt]; exact Int.bmod_eq_of_le (by omega) (by omega)
  have hr : (BitVec.ofInt 32 run).toInt = run := by rw [BitVec.toInt_ofInt]; exact Int.bmod_eq_of_le (by omega) (by omega)
  have hm : dumpMain cfg disk env (name :: decInt run :: decInt evt :: more) = dumpResult (r.readEvent (dumpConfig cfg env) (BitVec.ofInt 32 run) (BitVec.ofInt 32 evt)).1 := by
    simp only [dumpMain]
    rw [atoi_decInt run h1.1 h1.2]
    simp only
    rw [atoi_decInt evt (by omega) h2.2]
    simp only
    unfold dumpRunEvent
    rw [hdk]
    simp only
    rw [b3]
  have hk : ∀ p, wantedEvent (BitVec.ofInt 32 run) (BitVec.ofInt 32 evt) p = true ↔ ∃ h cols buf, p = Put.event h cols buf ∧ h.run.toInt = run ∧ h.evt.toInt = evt := by
    intro p
    cases p with
    | run h buf => simp [wantedEvent, Put.isEvent]
    | event h cols buf =>
      unfold wantedEvent
      rw [Bool.and_eq_true, decide_eq_true_eq]
      constructor
      · rintro ⟨-, hh⟩
        have y1 : h.run = BitVec.ofInt 32 run := congrArg RunEvent.run hh
        have y2 : h.evt = BitVec.ofInt 32 evt := congrArg RunEvent.evt hh
        exact ⟨h, cols, buf, rfl, by rw [y1, hr], by rw [y2, he]⟩
      · rintro ⟨h', cols', buf', hh, x1, x2⟩
        injection hh with hh
        subst hh
        have y1 : h.run = BitVec.ofInt 32 run := BitVec.eq_of_toInt_eq (by rw [x1, hr])
        have y2 : h.evt = BitVec.ofInt 32 evt := BitVec.eq_of_toInt_eq (by rw [x2, he])
        exact ⟨rfl, by show RunEvent.mk h.run h.evt = _; rw [y1, y2]⟩
  obtain ⟨c1, c2, -⟩ := b5 (BitVec.ofInt 32 run) (BitVec.ofInt 32 evt) (by rw [he]; exact h2.1)
  rw [hm]
  constructor
  · intro hno
    rw [(c1 ?_).1]
    · rfl
    · intro p hp
      rw [Bool.eq_false_iff]
      intro hw
      obtain ⟨h, cols, buf, rfl, x1, x2⟩ := (hk p).1 hw
      exact hno h cols buf hp ⟨x1, x2⟩
  · intro h cols buf hp x1 x2
    obtain ⟨e, -, p, -, hp', -, hw, -, hdel, -, hres, -⟩ := c2 ⟨_, hp, (hk _).2 ⟨h, cols, buf, rfl, x1, x2⟩⟩
    obtain ⟨h', cols', buf', rfl, y1, y2⟩ := (hk p).1 hw
    exact ⟨e, h', cols', buf', hp', y1, y2, hdel, by rw [hres]; rfl⟩

/-- **C101** for the collections: if names are given then only collections with these names are read. -/
theorem C101_collections (cfg : RConfig) (names : List Str) (h : ∀ s ∈ names, PlainName s) :
    (dumpConfig cfg (some (names.flatMap fun s => s ++ str " "))).wanted = names := words_blanks names h

/-- **C101** for the other arguments: the usage is shown if there is no event given, or if the number of the event is not positive. -/
theorem C101_usage (cfg : RConfig) (disk : Str → Option (List Byte)) (env : Option Str) (name : Str) (n : Int) (h1 : -2 ^ 31 ≤ n) (h2 : n < 1) :
    dumpMain cfg disk env [] = .ok .usage ∧ dumpMain cfg disk env [name] = .ok .usage ∧ dumpMain cfg disk env [name, decInt n] = .ok .usage := by
  refine ⟨rfl, rfl, ?_⟩
  simp only [dumpMain]
  rw [atoi_decInt n h1 (by omega)]
  simp only [dumpNth]
  rw [if_pos h2]

/-- A file with two events. -/
def dumpSessions : List Session := [⟨false, [.run { run := 4 } [], .event { run := 4, evt := 7 } [] ([], []), .event { run := 4, evt := 9 } [] ([], [])]⟩]

/-- What the program prints, with the files above. -/
def dumpSays (args : List Str) : Except Err (Option (Int × Int)) :=
  match dumpMain sampleCfg (fun name => if name = str "f" then some (fileOfSessions dumpSessions) else none) none args with
  | .error e => .error e
  | .ok (.event e) => .ok (some (e.1.run.toInt, e.1.evt.toInt))
  | .ok _ => .ok none

/-- The second event is printed, whether it is given by its position or its numbers; there is no third event. -/
example : dumpSays [str "f", str "2"] = .ok (some (4, 9)) ∧ dumpSays [str "f", str "4", str "9"] = .ok (some (4, 9)) ∧
    dumpSays [str "f", str "3"] = .ok none ∧ dumpSays [str "f", str "4", str "8"] = .ok none ∧ dumpSays [str "f", str "4"] = .error .badState ∧
    dumpSays [str "g", str "1"] = .error .notOpen := by decide +kernel

/-- The theorems apply to the files of C28 and C31. -/
example : ∃ bytes, fileAfter sampleCfg.codec sampleCfg.std sampleSessions = .ok (some bytes) ∧ ∀ disk, disk (str "f") = some bytes →
    (∃ e, dumpMain sampleCfg disk none [str "f", decInt (3 : Nat)] = .ok (.event e)) := by
  obtain ⟨bytes, h1, h2⟩ := C101_nth_partial sampleCfg none idCodec_lossless sampleSessions sampleSessions_ok sampleSessions_loadable (str "f") 3 (by omega) (by omega)
  refine ⟨bytes, h1, fun disk hd => ?_⟩
  obtain ⟨e, -, h3⟩ := (h2 disk hd).1 _ (List.getElem?_eq_getElem (by decide +kernel))
  exact ⟨e, h3⟩

example : ∃ bytes, fileAfter sampleCfg.codec sampleCfg.std sampleSessions = .ok (some bytes) ∧ ∀ disk, disk (str "f") = some bytes →
    dumpMain sampleCfg disk none [str "f", decInt (5 : Nat)] = .error .badState :=
  C101_fails_beyond sampleCfg none idCodec_lossless sampleSessions sampleSessions_ok sampleSessions_loadable (str "f") 5 (by decide +kernel) (by omega)

example : ∃ bytes, fileAfter sampleCfg.codec sampleCfg.std directSessions = .ok (some bytes) ∧ (bytes.length < 2 ^ 31 → ∀ disk, disk (str "f") = some bytes →
    dumpMain sampleCfg disk none [str "f", decInt 3, decInt 77] = .ok .notFound) := by
  obtain ⟨bytes, h1, h2⟩ := C101_direct_partial sampleCfg none idCodec_lossless directSessions directSessions_ok directSessions_direct directSessions_storable (str "f") 3 77
    (by omega) (by omega) []
  refine ⟨bytes, h1, fun hb disk hd => (h2 hb disk hd).1 ?_⟩
  intro h cols buf hm hh
  have hall : ∀ p ∈ allPuts directSessions, p.key.evt.toInt ≠ 77 := by decide +kernel
  exact hall _ hm hh.2

end Props
