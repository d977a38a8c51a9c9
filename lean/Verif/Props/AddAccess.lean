import Verif.Util.AddAccessLemmas
import Verif.Props.Unclosed
import Verif.Props.Split
/-
C84: the program that adds the records for direct access.
-/
namespace Props
open Sio Spec Lcio Util

/-- A file that the program does not have to change, or cannot: it was written in sessions that were closed, or is too short. -/
def Settled (bytes : List Byte) : Prop :=
  bytes.length < 136 ∨ ∃ (codec : Codec) (std : Std Pid) (ss : List Session), Lossless codec ∧ SessionsOk codec std ss ∧ fileAfter codec std ss = .ok (some bytes)

theorem addAccess_settled (codec : Codec) (disk : List (Str × List Byte)) (hd : (disk.map (·.1)).Nodup) (name : Str)
    (h : ∀ bytes, disk.lookup (getSIOFileName name) = some bytes → Settled bytes) (w : Writer) (hw : Idle w) :
    ∃ w', addAccessOne codec false w disk name = (.ok w', disk) ∧ Idle w' := by
  unfold addAccessOne
  simp only [Bool.false_eq_true, if_false]
  cases hb : disk.lookup (getSIOFileName name) with
  | none => exact ⟨w, rfl, hw⟩
  | some bytes =>
    rcases h bytes hb with hs | ⟨codec', std, ss, h1, h2, h3⟩
    · rw [keep_short codec w bytes hs]
      exact ⟨w, rfl, hw⟩
    · obtain ⟨cs, last, f, bytes', c1, c2, c3⟩ := fileAfter_content codec' h1 std ss h2
      rw [h3] at c2
      cases c2
      have hsz : Lcio.sizeOf cs < 2 ^ 63 := by
        cases c3 with
        | some h =>
          have := history_size codec' std cs last f h (by
            rw [(chunks_puts c1).1]
            exact h2.count)
          have := h2.count
          omega
      obtain ⟨w1, w2, e1, e2, e3⟩ := keep_content codec codec' std cs last f bytes c3 hsz w hw
      rw [e1]
      simp only
      rw [e2]
      refine ⟨w2, ?_, e3⟩
      simp only
      rw [diskSet_same disk hd _ bytes hb]

/-- **C84**, as far as it holds. The program is called with the names of any number of files. Each of them does not exist, has less than 136 bytes, or was written in any sessions of a writer that was
closed after each of them (with any codec). Then no file is changed: what has the records for direct access keeps everything that is in it.

Missing: all other files, see `C84_fails_for_unclosed`, and option `-f`, see `C84_fails_with_force` and `C84_fails_without_file`. -/
theorem C84_keeps_partial (codec : Codec) (names : List Str) (hn : names.head? ≠ some (str "-f")) (disk : List (Str × List Byte)) (hd : (disk.map (·.1)).Nodup)
    (h : ∀ name ∈ names, ∀ bytes, disk.lookup (getSIOFileName name) = some bytes → Settled bytes) :
    addRandomAccess codec names disk = (.ok (), disk) := by
  have loop : ∀ (names : List Str) (_ : ∀ name ∈ names, ∀ bytes, disk.lookup (getSIOFileName name) = some bytes → Settled bytes) (w : Writer) (_ : Idle w),
      addAccessLoop codec false w disk names = (.ok (), disk) := by
    intro names
    induction names with
    | nil => intro _ w _; rfl
    | cons name names ih =>
      intro h w hw
      obtain ⟨w', e, hw'⟩ := addAccess_settled codec disk hd name (h name (by simp)) w hw
      unfold addAccessLoop
      rw [e]
      exact ih (fun x hx => h x (by simp [hx])) w' hw'
  cases names with
  | nil => rfl
  | cons a rest =>
    unfold addRandomAccess
    simp only
    rw [if_neg (by simpa using hn)]
    exact loop _ h {} ⟨rfl, rfl, rfl, rfl⟩

/-- Reading a file that holds nothing. -/
theorem gets_nothing (cfg : RConfig) (name : Str) (bytes : List Byte) (h : ∃ rs, bytes = fileOf rs ∧ Layout cfg.codec cfg.std [] rs) (gs : List Get) :
    ∃ r, Reader.openFiles cfg false [(name, bytes)] = (.ok (), r) ∧ gets cfg gs r = .ok (serve cfg gs []) := by
  obtain ⟨r, h1, h2⟩ := gets_hold cfg [(name, bytes)] [[]] (Lcio.All2.cons h (Lcio.All2.nil _)) (by simp) (by
    intro c hc
    rw [List.mem_singleton.1 hc]
    intro p hp
    cases hp) gs
  exact ⟨r, h1, h2⟩

theorem found_sub (n : Nat) : ∀ (ps : List Put) (_ : ps.length ≤ n), (found ps).length ≤ ps.length ∧ ∀ p ∈ found ps, p ∈ ps := by
  induction n with
  | zero =>
    intro ps h
    obtain rfl := List.length_eq_zero_iff.1 (Nat.le_zero.1 h)
    simp [found]
  | succ n ih =>
    intro ps h
    match ps, h with
    | [], _ => simp [found]
    | .event h0 cols buf :: ps, h =>
      have := ih ps (by simp only [List.length_cons] at h; omega)
      refine ⟨by simp only [found, List.length_cons]; omega, ?_⟩
      intro p hp
      exact .tail _ (this.2 p hp)
    | [.run h0 buf], _ => simp [found]
    | .run h0 buf :: q :: ps, h =>
      have := ih ps (by simp only [List.length_cons] at h; omega)
      refine ⟨by simp only [found, List.length_cons]; omega, ?_⟩
      intro p hp
      simp only [found, List.mem_cons] at hp ⊢
      rcases hp with rfl | hp
      · exact .inr (.inl rfl)
      · exact .inr (.inr (this.2 p hp))

theorem found_length (ps : List Put) : (found ps).length ≤ ps.length := (found_sub ps.length ps (Nat.le_refl _)).1
theorem found_mem {ps : List Put} {p : Put} (h : p ∈ found ps) : p ∈ ps := (found_sub ps.length ps (Nat.le_refl _)).2 p h

/-- The program on one file without the record at its end. -/
theorem addAccess_emptied (codec : Codec) (f : Str) (hf : getSIOFileName f = f) (bytes : List Byte) (s : IStream) (ra : RaMgr)
    (hi : ({} : RaMgr).initAppend codec { bytes := bytes } = (.ok false, s, ra)) (w : Writer) (bytes' : List Byte)
    (hc : Writer.close ⟨some { bytes := [] }, ra⟩ = .ok (w, some bytes')) :
    addAccessLoop codec false {} [(f, bytes)] [f] = (.ok (), [(f, bytes')]) := by
  unfold addAccessLoop addAccessOne
  simp only [Bool.false_eq_true, if_false, hf, List.lookup_cons, beq_self_eq_true]
  unfold openAppendKeep
  simp only [hi, Bool.false_eq_true, if_false, hc]
  simp [addAccessLoop, diskSet]

/-- **C84** fails for files that need the records: a writer wrote some run headers and events to a new file and was not closed. The file has at least 136 bytes, the four bytes from position 132 before its
end are not those with which records are marked, and run headers are not compressed or none directly follows another. After the program, reading the file gives no run header and no event: everything that was
written is lost. -/
theorem C84_fails_for_unclosed (cfg : RConfig) (hcodec : Lossless cfg.codec) (s : Session) (hs : s.Ok cfg.codec cfg.std) (hcount : s.puts.length < 2 ^ 27)
    (hst : ∀ h cols buf, Put.event h cols buf ∈ s.puts → Storable cfg.std cfg.ignoreNull [] cfg.wanted h cols)
    (hc : s.compress = false ∨ ∀ p ∈ found s.puts, p.isEvent = true) (f : Str) (hf : getSIOFileName f = f) :
    ∃ w out, s.after cfg.codec cfg.std {} none s.puts.length = .ok w ∧ w.stream = some out ∧
      (136 ≤ out.bytes.length → (out.bytes.drop (out.bytes.length - 132)).take 4 ≠ [0xab, 0xad, 0xca, 0xfe] →
        ∃ bytes', addRandomAccess cfg.codec [f] [(f, out.bytes)] = (.ok (), [(f, bytes')]) ∧
          ∀ gs, ∃ r, Reader.openFiles cfg false [(f, bytes')] = (.ok (), r) ∧ gets cfg gs r = .ok (serve cfg gs [])) := by
  obtain ⟨gs, ra', h1, h2, h3⟩ := over_putAll_opts cfg.codec hcodec cfg.std s.compress s.puts hs.puts [] {}
  refine ⟨⟨some (over ([] ++ fileOf gs.flatten) []), ra'⟩, over ([] ++ fileOf gs.flatten) [], ?_, rfl, ?_⟩
  · unfold Session.after Writer.openNew
    simp only [bind, Except.bind, List.take_length]
    exact h3
  have hb : (over ([] ++ fileOf gs.flatten) []).bytes = fileOf gs.flatten := by simp [over]
  rw [hb]
  intro hlen hm
  have hleg : ∀ p ∈ s.puts, Legible p := by
    intro p hp
    cases p with
    | run => trivial
    | event h cols buf => exact storable_legible cfg h cols buf (hst h cols buf hp)
  obtain ⟨buf, e1⟩ := readAccessAt_none {} (fileOf gs.flatten) 0 hlen hm
  have hfuel : s.puts.length < recordFuel (ready (fileOf gs.flatten) 0) := by
    have := fileOf_length gs.flatten
    have := layout_length (all2_layout h1)
    show _ < (fileOf gs.flatten).length + 2
    omega
  obtain ⟨L, buf', q, f1, f2, f3⟩ := recreate_loop s.puts.length s.puts (Nat.le_refl _) gs h1 hleg (hc.elim (fun h => .inr fun r hr => by rw [h2 r hr, h]) .inl)
    (recordFuel (ready (fileOf gs.flatten) 0)) hfuel { ({} : RaMgr) with buf := buf } [] [] (by simp)
  simp only [List.nil_append, List.length_nil] at f1
  rw [addKeys_eq] at f1
  have hi : ∃ st, ({} : RaMgr).initAppend cfg.codec { bytes := fileOf gs.flatten } =
      (.ok false, st, { ({} : RaMgr) with map := ({} : RunEventMap).addAll (L.map fun e => (e.1, BitVec.ofNat 64 e.2)), buf := buf' }) := by
    unfold RaMgr.initAppend
    rw [show ({ bytes := fileOf gs.flatten } : IStream) = ready (fileOf gs.flatten) 0 from rfl, e1]
    simp only
    unfold RaMgr.recreateEventMap
    have s0 : ∀ q, seekStream (ready (fileOf gs.flatten) q) 0 = (.ok (), ready (fileOf gs.flatten) 0) := fun q => seekStream_pos _ q 0
    simp only [s0, f1]
    exact ⟨_, rfl⟩
  obtain ⟨st, hi⟩ := hi
  have hLlen : L.length ≤ s.puts.length := by
    have := congrArg List.length f2
    simp only [List.length_map] at this
    rw [this]
    exact found_length s.puts
  obtain ⟨w, bytes', c1, c2⟩ := close_emptied cfg.codec cfg.std { ({} : RaMgr) with map := ({} : RunEventMap).addAll (L.map fun e => (e.1, BitVec.ofNat 64 e.2)), buf := buf' } _ rfl rfl
    (by rw [List.length_map]; omega) (by
      have hk : ((L.map fun e => (e.1, BitVec.ofNat 64 e.2)).map fun x => x.1) = (found s.puts).map Put.key := by
        rw [List.map_map]; exact f2
      rw [hk]
      exact runsClose_of _ fun p hp q hq => hs.runs p (found_mem hp) q (found_mem hq))
  refine ⟨bytes', ?_, fun gs => gets_nothing cfg f bytes' c2 gs⟩
  unfold addRandomAccess
  simp only
  rw [if_neg (by rintro rfl; revert hf; decide)]
  exact addAccess_emptied cfg.codec f hf _ _ _ hi w bytes' c1

/-- **C84** fails with option `-f` for every file with events only that was written in sessions of a writer that was closed: afterwards the file is empty. -/
theorem C84_fails_with_force (codec : Codec) (hcodec : Lossless codec) (std : Std Pid) (ss : List Session) (hs : SessionsOk codec std ss)
    (he : ∀ p ∈ allPuts ss, p.isEvent = true) (f : Str) (hf : getSIOFileName f = f) :
    ∃ bytes, fileAfter codec std ss = .ok (some bytes) ∧ 136 ≤ bytes.length ∧ addRandomAccess codec [str "-f", f] [(f, bytes)] = (.ok (), [(f, [])]) := by
  obtain ⟨cs, last, fr, bytes, c1, c2, c3⟩ := fileAfter_content codec hcodec std ss hs
  refine ⟨bytes, c2, ?_⟩
  have hall := (chunks_puts c1).1
  cases c3 with
  | some h a ha r hr =>
    refine ⟨by rw [List.length_append, access_wire r a hr]; omega, ?_⟩
    obtain ⟨o1, o2, o3, o4, o5⟩ := ignored_ok r a hr
    have hlay := layout_history h (.other (ignored r) [] [] o1 o2.2 o2.1 o3 .nil)
    rw [List.append_nil, hall] at hlay
    have hB : fileOf (recsOf cs) ++ (ignored r).wire = fileOf (recsOf cs ++ [ignored r]) := by simp [fileOf_append, fileOf_cons, fileOf_nil]
    obtain ⟨buf, e1⟩ := readAccessAt_other {} (fileOf (recsOf cs)) (ignored r) o1 o4 o5
    rw [hB] at e1
    have hfuel : (allPuts ss).length < recordFuel (ready (fileOf (recsOf cs ++ [ignored r])) 0) := by
      have := fileOf_length (recsOf cs ++ [ignored r])
      have := layout_length hlay
      show _ < (fileOf (recsOf cs ++ [ignored r])).length + 2
      omega
    obtain ⟨buf', q, f1⟩ := recreate_events hlay he _ hfuel { ({} : RaMgr) with buf := buf } [] [] (by simp)
    simp only [List.nil_append, List.length_nil] at f1
    have hi : ∃ st, ({} : RaMgr).initAppend codec { bytes := fileOf (recsOf cs ++ [ignored r]) } = (.ok false, st, { ({} : RaMgr) with buf := buf' }) := by
      unfold RaMgr.initAppend
      rw [show ({ bytes := fileOf (recsOf cs ++ [ignored r]) } : IStream) = ready (fileOf (recsOf cs ++ [ignored r])) 0 from rfl, e1]
      simp only
      unfold RaMgr.recreateEventMap
      have s0 : ∀ q, seekStream (ready (fileOf (recsOf cs ++ [ignored r])) q) 0 = (.ok (), ready (fileOf (recsOf cs ++ [ignored r])) 0) := fun q => seekStream_pos _ q 0
      simp only [s0, f1]
      exact ⟨_, rfl⟩
    obtain ⟨st, hi⟩ := hi
    unfold addRandomAccess
    simp only [if_true]
    unfold addAccessLoop addAccessOne
    simp only [hf, if_true, List.lookup_cons, beq_self_eq_true]
    rw [forceIgnore_eq _ r a hr, hB]
    simp only [diskSet, List.map_cons, List.map_nil, if_true, List.lookup_cons, beq_self_eq_true]
    unfold openAppendKeep
    simp only [hi, Bool.false_eq_true, if_false]
    rfl

/-- **C84** fails with option `-f` if a file does not exist: the behaviour is undefined. -/
theorem C84_fails_without_file (codec : Codec) (disk : List (Str × List Byte)) (name : Str) (rest : List Str) (h : disk.lookup name = none) :
    (addRandomAccess codec (str "-f" :: name :: rest) disk).1 = .error .ub := by
  unfold addRandomAccess
  simp only [if_true]
  unfold addAccessLoop addAccessOne
  simp [h]

/-! ## Cases -/

/-- The hypotheses of `C84_keeps_partial` are met by a file of three sessions, given without and with its extension, together with a missing file and a short one. -/
example : ∃ bytes, fileAfter sampleCfg.codec sampleCfg.std directSessions = .ok (some bytes) ∧
    addRandomAccess sampleCfg.codec [str "a", str "b.slcio", str "c", str "a.slcio"] [(str "c.slcio", [1, 2, 3]), (str "a.slcio", bytes)] =
      (.ok (), [(str "c.slcio", [1, 2, 3]), (str "a.slcio", bytes)]) := by
  obtain ⟨cs, last, f, bytes, -, h, -⟩ := fileAfter_content sampleCfg.codec idCodec_lossless sampleCfg.std directSessions directSessions_ok
  refine ⟨bytes, h, C84_keeps_partial sampleCfg.codec _ (by decide) _ (by simp only [List.map_cons, List.map_nil]; decide) ?_⟩
  have hset : Settled bytes := .inr ⟨_, _, _, idCodec_lossless, directSessions_ok, h⟩
  intro name hname b hb
  simp only [List.mem_cons, List.not_mem_nil, or_false] at hname
  have e1 : getSIOFileName (str "a") = str "a.slcio" := by decide
  have e2 : getSIOFileName (str "b.slcio") = str "b.slcio" := by decide
  have e3 : getSIOFileName (str "c") = str "c.slcio" := by decide
  have e4 : getSIOFileName (str "a.slcio") = str "a.slcio" := by decide
  have n1 : (str "a.slcio" == str "c.slcio") = false := by decide
  have n2 : (str "b.slcio" == str "c.slcio") = false := by decide
  have n3 : (str "b.slcio" == str "a.slcio") = false := by decide
  rcases hname with rfl | rfl | rfl | rfl
  · rw [e1, List.lookup_cons, n1, List.lookup_cons] at hb
    simp only [beq_self_eq_true] at hb
    cases hb; exact hset
  · rw [e2, List.lookup_cons, n2, List.lookup_cons, n3] at hb
    cases hb
  · rw [e3, List.lookup_cons] at hb
    simp only [beq_self_eq_true] at hb
    cases hb; exact .inl (by decide)
  · rw [e4, List.lookup_cons, n1, List.lookup_cons] at hb
    simp only [beq_self_eq_true] at hb
    cases hb; exact hset

/-- A file with two runs, written by a writer that was not closed: before the program four events can be read, afterwards none, and all that is left are records for direct access. -/
example : numbersIn [.event, .event] (unclosed unclosedSample) = .ok [some (1, some 0), some (1, some 1)] ∧
    136 ≤ (unclosed unclosedSample).length ∧ ((unclosed unclosedSample).drop ((unclosed unclosedSample).length - 132)).take 4 ≠ [0xab, 0xad, 0xca, 0xfe] ∧
    ((addRandomAccess sampleCfg.codec [str "f.slcio"] [(str "f.slcio", unclosed unclosedSample)]).2.map fun f => (f.1, (numbersIn [.event, .run] f.2).toOption)) =
      [(str "f.slcio", some [none])] := by
  decide +kernel

/-- A file with two events, before and after the program with option `-f`. -/
example :
    let file := (fileAfter sampleCfg.codec sampleCfg.std [⟨false, [.event { run := 1, evt := 0 } [] ([], []), .event { run := 1, evt := 1 } [] ([], [])]⟩]).toOption.join.getD []
    numbersIn [.event, .event, .event] file = .ok [some (1, some 0), some (1, some 1), none] ∧
    addRandomAccess sampleCfg.codec [str "-f", str "f.slcio"] [(str "f.slcio", file)] = (.ok (), [(str "f.slcio", [])]) := by
  decide +kernel

end Props
