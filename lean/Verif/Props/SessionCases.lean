import Verif.Props.Sessions
/-
Concrete sessions for C27-C35.
-/
namespace Props
open Sio Spec Lcio

theorem jobOk_id (name : Str) (opts : W32) (bs : List WBlock) (c : Bool) (h : Writable name bs) (hs : headerLen name + dataLen bs + 3 < 2 ^ 32) :
    Job.Ok idCodec ⟨name, opts, bs, c⟩ := ⟨h, fun _ data hd => ⟨data, rfl, by simp only; rw [hd]; exact hs⟩⟩

def runHeaderOf (run : W32) : RunHeader := { run := run, det := str "ILD", descr := str "test beam", subdets := [str "TPC", str "ECAL"], params := sampleParams }
def tinyCols : List (Str × Collection) := [(str "MC", mcCol [(5, [])])]

/-- Two sessions, the second one with compression. -/
def sampleSessions : List Session :=
  [⟨false, [.run (runHeaderOf 3) [], .event sampleEventHeader sampleCols ([7, 7], [])]⟩,
   ⟨true, []⟩,
   ⟨true, [.event { run := 3, evt := 9 } tinyCols ([], []), .run (runHeaderOf 4) [1], .event { run := 4, evt := 0 } [] ([], [])]⟩]

/-- A file can be read with the identity as codec. -/
def sampleCfg : RConfig := { codec := idCodec, std := ieee }

theorem sampleSessions_ok : SessionsOk sampleCfg.codec sampleCfg.std sampleSessions := by
  have h3 : RunHeaderOk (runHeaderOf 3) := ⟨by decide, by decide, by decide, by decide, sampleParams_ok⟩
  have h4 : RunHeaderOk (runHeaderOf 4) := ⟨by decide, by decide, by decide, by decide, sampleParams_ok⟩
  refine ⟨?_, ⟨_, _, rfl, by simp⟩, by decide⟩
  intro s hs
  simp only [sampleSessions, List.mem_cons, List.not_mem_nil, or_false] at hs
  rcases hs with rfl | rfl | rfl
  · refine ⟨?_, by decide +kernel⟩
    intro p hp
    simp only [List.mem_cons, List.not_mem_nil, or_false] at hp
    rcases hp with rfl | rfl
    · exact ⟨h3, jobOk_id _ _ _ _ (by decide +kernel) (by decide +kernel)⟩
    · exact ⟨jobOk_id _ _ _ _ (by decide +kernel) (by decide +kernel), jobOk_id _ _ _ _ (by decide +kernel) (by decide +kernel)⟩
  · exact ⟨by simp, by simp⟩
  · refine ⟨?_, by decide +kernel⟩
    intro p hp
    simp only [List.mem_cons, List.not_mem_nil, or_false] at hp
    rcases hp with rfl | rfl | rfl
    · exact ⟨jobOk_id _ _ _ _ (by decide +kernel) (by decide +kernel), jobOk_id _ _ _ _ (by decide +kernel) (by decide +kernel)⟩
    · exact ⟨h4, jobOk_id _ _ _ _ (by decide +kernel) (by decide +kernel)⟩
    · exact ⟨jobOk_id _ _ _ _ (by decide +kernel) (by decide +kernel), jobOk_id _ _ _ _ (by decide +kernel) (by decide +kernel)⟩

theorem sampleSessions_storable : ∀ h cols buf, Put.event h cols buf ∈ allPuts sampleSessions →
    Storable sampleCfg.std sampleCfg.ignoreNull [] sampleCfg.wanted h cols := by
  intro h cols buf hm
  simp only [allPuts, sampleSessions, List.flatMap_cons, List.flatMap_nil, List.append_nil, List.nil_append, List.mem_append, List.mem_cons, List.not_mem_nil, or_false,
    reduceCtorEq, false_or, or_false, Put.event.injEq] at hm
  rcases hm with ⟨rfl, rfl, -⟩ | ⟨rfl, rfl, -⟩ | ⟨rfl, rfl, -⟩
  · exact sampleEvent_ok
  · decide +kernel
  · decide +kernel

theorem sampleSessions_loadable : Loadable sampleCfg (allPuts sampleSessions) := storable_loadable sampleCfg _ sampleSessions_storable

/-- The hypotheses of C31, C32 and C33 are met by these sessions. -/
example (gs : List Get) : ∃ bytes r, fileAfter sampleCfg.codec sampleCfg.std sampleSessions = .ok (some bytes) ∧
    Reader.openFiles sampleCfg false [(str "f", bytes)] = (.ok (), r) ∧
    gets sampleCfg gs r = .ok (serve sampleCfg gs ((allPuts sampleSessions).map fun p => (str "f", p))) := by
  obtain ⟨bytes, r, h1, h2, h3, -⟩ := C31_in_order sampleCfg idCodec_lossless sampleSessions sampleSessions_ok sampleSessions_loadable (str "f") gs
  exact ⟨bytes, r, h1, h2, h3⟩

example : ∃ bytes r es, fileAfter sampleCfg.codec sampleCfg.std sampleSessions = .ok (some bytes) ∧
    Reader.openFiles sampleCfg false [(str "f", bytes)] = (.ok (), r) ∧ allEvents sampleCfg 6 r = .ok es ∧ es.length = 3 := by
  obtain ⟨bytes, r, es, h1, h2, h3, h4⟩ := C31_all_events sampleCfg idCodec_lossless sampleSessions sampleSessions_ok sampleSessions_storable (str "f")
  exact ⟨bytes, r, es, h1, h2, h3, h4.1.symm⟩

theorem emptyFile_after (codec : Codec) (std : Std Pid) (c : Bool) : fileAfter codec std [⟨c, []⟩] = .ok (some []) := by
  cases c <;> rfl

/-- Three files: twice the sample sessions, between them an empty file. -/
theorem sampleFiles_hold : ∃ bytes, FilesHold sampleCfg.codec sampleCfg.std [(str "f", bytes), (str "g", []), (str "h", bytes)]
    [(str "f", sampleSessions), (str "g", [⟨false, []⟩]), (str "h", sampleSessions)] := by
  obtain ⟨bytes, h1, -⟩ := holds_sessions sampleCfg idCodec_lossless sampleSessions sampleSessions_ok
  exact ⟨bytes, Lcio.All2.cons ⟨rfl, h1, .inl sampleSessions_ok⟩ (Lcio.All2.cons ⟨rfl, emptyFile_after _ _ _, .inr ⟨_, rfl⟩⟩
    (Lcio.All2.cons ⟨rfl, h1, .inl sampleSessions_ok⟩ (Lcio.All2.nil _)))⟩

theorem sampleFiles_loadable : ∀ c ∈ [(str "f", sampleSessions), (str "g", [⟨false, []⟩]), (str "h", sampleSessions)], Loadable sampleCfg (allPuts c.2) := by
  intro c hc
  simp only [List.mem_cons, List.not_mem_nil, or_false] at hc
  rcases hc with rfl | rfl | rfl
  · exact sampleSessions_loadable
  · intro p hp; simp [allPuts] at hp
  · exact sampleSessions_loadable

example (gs : List Get) : ∃ files r, Reader.openFiles sampleCfg false files = (.ok (), r) ∧
    gets sampleCfg gs r = .ok (serve sampleCfg gs (contentsOf [(str "f", sampleSessions), (str "g", [⟨false, []⟩]), (str "h", sampleSessions)])) := by
  obtain ⟨bytes, h⟩ := sampleFiles_hold
  obtain ⟨r, h1, h2, -⟩ := C32_concatenation sampleCfg idCodec_lossless _ _ h (by simp) sampleFiles_loadable gs
  exact ⟨_, r, h1, h2⟩

example : ∃ files r log r', Reader.openFiles sampleCfg false files = (.ok (), r) ∧ r.readStream sampleCfg 1 (7 : Nat) = (log, .ok (), r') ∧
    log = handed sampleCfg 1 ((contentsOf [(str "f", sampleSessions), (str "g", [⟨false, []⟩]), (str "h", sampleSessions)]).take 7) := by
  obtain ⟨bytes, h⟩ := sampleFiles_hold
  obtain ⟨r, log, res, r', h1, h2, h3, h4, -⟩ := C33_listeners_partial sampleCfg idCodec_lossless _ _ h (by simp) sampleFiles_loadable 1 (.inl (Nat.le_refl 1)) 7
    (by decide) (by decide)
  rw [if_pos (by decide)] at h4
  exact ⟨_, r, log, r', h1, by rw [h2, h4], h3⟩

abbrev Family := List (List (Nat × List Nat × List Nat))
instance : DecidableEq Family := inferInstance
/-- What the listeners get from a file with the given name that is written in these sessions: for each delivery number of the listener, and addresses, parents
and daughters of the elements of all collections. -/
def heard (ss : List Session) (k : Nat) (n : Int) : List (Nat × Family) :=
  match fileAfter idCodec ieee ss with
  | .ok (some bytes) => (((Reader.openFiles sampleCfg false [(str "f", bytes)]).2.readStream sampleCfg k n).1).map fun x => (x.1, match x.2 with
    | .run _ => []
    | .event e => e.2.map fun c => c.2.elems.map fun e => (e.addr, parentsOf e, daughtersOf e))
  | _ => []

def twoCols : List (Str × Collection) := [(str "A", mcCol [(11, [])]), (str "B", mcCol [(12, [11])])]
/-- **C33** fails with two listeners. A particle in one collection with a daughter in another one: the relations are restored once for each listener, and the
second one (and from then on also the first, they get the same event) sees the parent twice and the daughter three times. -/
theorem C33_fails_for_two_listeners : Storable ieee false [] [] {} twoCols ∧
    heard [⟨false, [.event {} twoCols ([], [])]⟩] 2 1 =
      [(0, [[(1, [], [2])], [(2, [1], [])]]), (1, [[(1, [], [2, 2, 2])], [(2, [1, 1], [])]])] :=
  ⟨by decide +kernel, by decide +kernel⟩

end Props
