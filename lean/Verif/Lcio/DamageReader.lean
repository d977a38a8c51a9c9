import Verif.Lcio.DamageStream
/-
Lemmas for C74 and C75: what a reader does on arbitrary files.
-/
namespace Lcio
open Sio Spec

theorem plainData_any {codec : Codec} (hc : SafeCodec codec) (info : RecordInfo) (data : List Byte) :
    plainData codec info data ≠ .error .ub ∧ plainData codec info data ≠ .error .diverge ∧
    ∀ out, data.length < 2 ^ 32 → info.uncompressedLength < 2 ^ 32 → plainData codec info data = .ok out → out.length < 2 ^ 32 := by
  unfold plainData
  split
  · exact ⟨hc.ub _ _, hc.ends _ _, fun out _ h2 h => Nat.lt_of_le_of_lt (hc.size _ _ _ h) h2⟩
  · exact ⟨(fun h => nomatch h), (fun h => nomatch h), fun out h1 _ h => by cases h; exact h1⟩

theorem tame_headerDecoder (only) : ∀ b ∈ [headerDecoder only], ∀ v, Tame (b.read v) := by
  intro b hb v
  rw [List.mem_singleton.1 hb]
  exact tame_eventHeader _ _

theorem tame_runDecoder : ∀ b ∈ [runDecoder], ∀ v, Tame (b.read v) := by
  intro b hb v
  rw [List.mem_singleton.1 hb]
  exact tame_runHeader _

theorem tame_accessDecoder : ∀ b ∈ [accessDecoder], ∀ v, Tame (b.read v) := by
  intro b hb v
  rw [List.mem_singleton.1 hb]
  exact tame_access _

theorem tame_indexDecoder : ∀ b ∈ [indexDecoder], ∀ v, Tame (b.read v) := by
  intro b hb v
  rw [List.mem_singleton.1 hb]
  exact tame_index _

theorem decodeHeader_any (cfg : RConfig) (data : List Byte) (hl : data.length < 2 ^ 32) :
    (decodeHeader cfg data = .error .ub → OverlongBlock data [headerDecoder cfg.wanted]) ∧ (decodeHeader cfg data = .error .diverge → ZeroBlock data) := by
  unfold decodeHeader
  split
  · rename_i e he
    exact ⟨fun h => readBlocks_ub _ _ (tame_headerDecoder _) _ (by cases h; exact he), fun h => readBlocks_diverge _ _ (fun b hb v => (tame_headerDecoder _ b hb v).calm) _ hl (by cases h; exact he)⟩
  · exact ⟨(fun h => nomatch h), fun h => nomatch h⟩

/-- What can go wrong when the collections of an event are decoded. -/
def BadCols (cfg : RConfig) (hdr : EventHeader) (data : List Byte) : Prop :=
  OverlongBlock data (eventDecoders cfg.std hdr.cols) ∨
  ∃ p info span, extractBlock data p = .ok (info, span) ∧ ∃ c ∈ hdr.cols, c.1 = info.name ∧
    (kindOf c.2.type = none ∨ kindOf c.2.type = some .recoParticle ∧ newer info.version 1 2 = false)

theorem eventDecoders_calm (std : Std Pid) (cols : List (Str × ColHead)) : ∀ b ∈ eventDecoders std cols, ∀ v, Calm (b.read v) := by
  intro b hb v
  obtain ⟨c, hc, rfl⟩ := List.mem_map.1 hb
  exact calm_collection _ _ _

theorem decodeCollections_any (cfg : RConfig) (hdr : EventHeader) (data : List Byte) (hl : data.length < 2 ^ 32) :
    (decodeCollections cfg hdr data = .error .ub → BadCols cfg hdr data) ∧ (decodeCollections cfg hdr data = .error .diverge → ZeroBlock data) := by
  unfold decodeCollections
  split
  · rename_i e he
    refine ⟨fun h => ?_, fun h => readBlocks_diverge _ _ (eventDecoders_calm _ _) _ hl (by cases h; exact he)⟩
    cases h
    rcases readBlocks_ub' _ _ _ he with h | ⟨p, info, span, h1, b, hb, h2, h3⟩
    · exact Or.inl h
    · obtain ⟨c, hc, rfl⟩ := List.mem_map.1 hb
      refine Or.inr ⟨p, info, span, h1, c, hc, h2, ?_⟩
      cases hk : kindOf c.2.type with
      | none => exact Or.inl rfl
      | some k =>
        by_cases hv : k = .recoParticle → newer info.version 1 2 = true
        · exact absurd (tame_collection cfg.std c.2.type info.version k hk hv) h3
        · refine Or.inr ?_
          by_cases hr : k = .recoParticle
          · refine ⟨by rw [hr], ?_⟩
            cases hn : newer info.version 1 2 with
            | false => rfl
            | true => exact absurd (fun _ => hn) hv
          · exact absurd (fun h => absurd h hr) hv
  · exact ⟨(fun h => nomatch h), fun h => nomatch h⟩

theorem mapPtr_particle (f : Nat → Nat) (e : Elem) : (e.mapPtr f).particle = e.particle.map (·.mapPtr f) := by
  unfold Elem.mapPtr Elem.particle
  cases h : e.obj with
  | none => simp
  | some o => cases o <;> simp [Obj.mapPtr]

/-- The relations of an event that has been read can be restored, unless a parent is not a particle. -/
theorem decoded_closed (cfg : RConfig) (hdr : EventHeader) (data : List Byte) {cols} (h : decodeCollections cfg hdr data = .ok cols) (hw : ¬ WrongParent cols) : Closed cols := by
  unfold decodeCollections at h
  split at h
  · cases h
  · rename_i results ρ dev hr
    have hfresh := readBlocks_gives (Q := fun _ c => ∃ t, FreshAt t c) data (eventDecoders cfg.std hdr.cols) (by
      intro b hb v
      obtain ⟨c, hc, rfl⟩ := List.mem_map.1 hb
      have := gives_collection cfg.std c.2.type v
      simp only
      generalize Collection.read cfg.std c.2.type v = p at this
      clear hr
      induction p with
      | ret a => exact ⟨_, this⟩
      | throw e => trivial
      | arr s c k ih => intro l; exact ih l (this l)
      | ptr k ih => intro w; exact ih w (this w)
      | tag o k ih => exact ih this
      | new k ih => intro o; exact ih o (this o)) _ hr
    simp only at hfresh
    cases h
    -- every collection is empty or fresh with other addresses
    have hcase : ∀ c ∈ filledCols hdr.cols (results.map fun c => (c.1, c.2.mapPtr ρ)), c.2.elems = [] ∨ ∃ c0 t, FreshAt t c0 ∧ c.2 = c0.mapPtr ρ := by
      intro c hc
      obtain ⟨hd, hhd, rfl⟩ := List.mem_map.1 hc
      simp only
      split
      · rename_i r hf
        obtain ⟨r0, hr0, rfl⟩ := List.mem_map.1 (List.mem_of_find?_eq_some hf)
        obtain ⟨t, ht⟩ := hfresh r0 hr0
        exact Or.inr ⟨r0.2, t, ht, rfl⟩
      · exact Or.inl rfl
    generalize filledCols hdr.cols (results.map fun c => (c.1, c.2.mapPtr ρ)) = cols at hcase hw
    constructor
    · intro c hc ho e he
      rcases hcase c hc with h | ⟨c0, t, hf, h⟩
      · rw [h] at he; cases he
      · rw [h] at he ho
        obtain ⟨e0, he0, rfl⟩ := List.mem_map.1 he
        rw [mapPtr_particle]
        simp only [Collection.mapPtr, Bool.and_eq_true, beq_iff_eq, Bool.not_eq_true'] at ho
        have := hf.2.2 ho e0 he0
        intro hn
        exact this (by simpa using hn)
    · intro e he o ho a ha
      obtain ⟨c, hc, hec⟩ := List.mem_flatMap.1 he
      rcases hcase c hc with h | ⟨c0, t, hf, h⟩
      · rw [h] at hec; cases hec
      · have hec' := hec
        rw [h] at hec'
        obtain ⟨e0, he0, rfl⟩ := List.mem_map.1 hec'
        rw [mapPtr_particle] at ho
        cases hp : e0.particle with
        | none => rw [hp] at ho; cases ho
        | some o0 =>
          rw [hp] at ho
          cases ho
          have hobj : e0.obj = some (.mcParticle o0) := by
            unfold Elem.particle at hp
            split at hp
            · rename_i x hx; cases hp; exact hx
            · cases hp
          obtain ⟨hown, hd⟩ := hf.2.1 e0 he0 o0 hobj
          have hdn : (o0.mapPtr ρ).daughters = [] := by simp [MCParticle.mapPtr, hd]
          rw [hdn, List.append_nil] at ha
          intro hnone
          refine hw ⟨c, hc, by rw [h]; exact hown, e0.mapPtr ρ, hec, o0.mapPtr ρ, by simp [Elem.mapPtr, hobj, Obj.mapPtr], a, ha, ?_⟩
          rintro ⟨c', hc', e', he', ha', o', ho'⟩
          refine (findParticle_ne_none.2 ⟨e', List.mem_flatMap.2 ⟨c', hc', he'⟩, ha', ?_⟩) hnone
          unfold Elem.particle
          rw [ho']
          simp

theorem finishEvent_closed (cfg : RConfig) {e : EventData} (h : Closed e.2) :
    finishEvent cfg e = .error .lcException ∨ ∃ e', finishEvent cfg e = .ok e' ∧ Closed e'.2 := by
  obtain ⟨cols, h1, h2⟩ := restoreRelations_closed h
  unfold finishEvent postProcess
  rw [h1]
  simp only
  split
  · rename_i err he
    split at he
    · cases he; exact Or.inl rfl
    · cases he
  · rename_i cols' he
    split at he
    · cases he
    · cases he; exact Or.inr ⟨_, rfl, h2⟩

theorem postProcess_ne_diverge (n : Bool) (cols : List (Str × Collection)) : postProcess n cols ≠ .error .diverge := by
  have p1 : ∀ m (l : List Nat) (cols : List (Str × Collection)), pushDaughters m l cols ≠ .error .diverge := by
    intro m l
    induction l with
    | nil => intro cols h; cases h
    | cons a l ih => intro cols; unfold pushDaughters; split; (· exact (fun h => nomatch h)); (· exact ih _)
  have p2 : ∀ m (l : List Nat) (cols : List (Str × Collection)), pushParents m l cols ≠ .error .diverge := by
    intro m l
    induction l with
    | nil => intro cols h; cases h
    | cons a l ih => intro cols; unfold pushParents; split; (· exact (fun h => nomatch h)); (· exact ih _)
  have p3 : ∀ nD nP (l : List Nat) (cols : List (Str × Collection)), restoreLoop nD nP l cols ≠ .error .diverge := by
    intro nD nP l
    induction l with
    | nil => intro cols h; cases h
    | cons a l ih =>
      intro cols
      unfold restoreLoop
      split
      · exact fun h => nomatch h
      · split
        · split
          · rename_i he; intro h; cases h; exact p2 _ _ _ he
          · exact ih _
        · split
          · split
            · rename_i he; intro h; cases h; exact p1 _ _ _ he
            · exact ih _
          · exact ih _
  have p4 : ∀ n i (cols : List (Str × Collection)), restoreFrom i n cols ≠ .error .diverge := by
    intro n
    induction n with
    | zero => intro i cols h; cases h
    | succ n ih =>
      intro i cols
      unfold restoreFrom
      split
      · rename_i he
        intro h
        cases h
        unfold restoreCol at he
        repeat' split at he
        all_goals first | (cases he; done) | exact p3 _ _ _ _ he
      · exact ih _ _
  unfold postProcess restoreRelations
  split
  · rename_i he; intro h; cases h; exact p4 _ _ _ he
  · split <;> exact fun h => nomatch h

theorem finishEvent_ne_diverge (cfg : RConfig) (e : EventData) : finishEvent cfg e ≠ .error .diverge := by
  unfold finishEvent
  split
  · rename_i he; intro h; cases h; exact postProcess_ne_diverge _ _ he
  · exact fun h => nomatch h

/-- What is known about the variables of the functions that read events. -/
structure EvInv (cfg : RConfig) (file : List Byte) (hdr : Option EventHeader) (evt : Option EventData) : Prop where
  hdr : ∀ h, hdr = some h → ∃ hdata, Recorded cfg.codec file headerRecordName hdata ∧ decodeHeader cfg hdata = .ok h
  evt : ∀ e, evt = some e → ∃ hdata data, Recorded cfg.codec file headerRecordName hdata ∧ decodeHeader cfg hdata = .ok e.1 ∧
    Recorded cfg.codec file eventRecordName data ∧ decodeCollections cfg e.1 data = .ok e.2

theorem danger_of_badCols {cfg : RConfig} {file hdata data : List Byte} {hdr : EventHeader} (h1 : Recorded cfg.codec file headerRecordName hdata)
    (h2 : decodeHeader cfg hdata = .ok hdr) (h3 : Recorded cfg.codec file eventRecordName data) (h : BadCols cfg hdr data) : Danger cfg file := by
  rcases h with h | ⟨p, info, span, hb, c, hc, hn, hk | ⟨hk, hv⟩⟩
  · exact .collections hdata hdr data h1 h2 h3 h
  · exact .unknownType hdata hdr data h1 h2 h3 p info span hb c hc hn hk
  · exact .oldParticles hdata hdr data h1 h2 h3 p info span hb c hc hn hk hv

theorem eventProcessor_any (cfg : RConfig) (hc : SafeCodec cfg.codec) (file : List Byte) (st : EventState) (i : RecordInfo) (data : List Byte) (p : Nat)
    (hI : EvInv cfg file st.hdr st.evt) (hst : HeldAt file p i data) (h1 : i.dataLength < 2 ^ 32) (h2 : i.uncompressedLength < 2 ^ 32) :
    EvInv cfg file (eventProcessor cfg st i data).1.hdr (eventProcessor cfg st i data).1.evt ∧
    ((eventProcessor cfg st i data).2 = .error .ub → Danger cfg file) ∧ ((eventProcessor cfg st i data).2 = .error .diverge → Stuck cfg file) := by
  obtain ⟨hp1, hp2, hp3⟩ := plainData_any hc i data
  unfold eventProcessor
  split
  · rename_i e he
    exact ⟨hI, fun h => absurd (by cases h; exact he) hp1, fun h => absurd (by cases h; exact he) hp2⟩
  · rename_i plain hpl
    have hl := hp3 plain (by rw [hst.2.2]; exact h1) h2 hpl
    split
    · rename_i hn
      have hrec : Recorded cfg.codec file headerRecordName plain := ⟨p, i, data, hst, hn, hpl⟩
      obtain ⟨d1, d2⟩ := decodeHeader_any cfg plain hl
      split
      · rename_i e he
        exact ⟨hI, fun h => .header plain cfg.wanted (.inl rfl) hrec (d1 (by cases h; exact he)), fun h => .block _ plain (Or.inl hrec) (d2 (by cases h; exact he))⟩
      · rename_i h he
        refine ⟨⟨fun h' hh => ?_, fun e hh => nomatch hh⟩, (fun h => nomatch h), fun h => nomatch h⟩
        cases hh
        exact ⟨plain, hrec, he⟩
    · split
      · rename_i hn
        have hrec : Recorded cfg.codec file eventRecordName plain := ⟨p, i, data, hst, hn, hpl⟩
        split
        · exact ⟨hI, (fun h => nomatch h), fun h => nomatch h⟩
        · rename_i hdr hh
          obtain ⟨hdata, hr1, hr2⟩ := hI.hdr hdr hh
          obtain ⟨d1, d2⟩ := decodeCollections_any cfg hdr plain hl
          split
          · rename_i e he
            exact ⟨hI, fun h => danger_of_badCols hr1 hr2 hrec (d1 (by cases h; exact he)), fun h => .block _ plain (Or.inl hrec) (d2 (by cases h; exact he))⟩
          · rename_i cols he
            refine ⟨⟨hI.hdr, fun e hh => ?_⟩, (fun h => nomatch h), fun h => nomatch h⟩
            cases hh
            exact ⟨hdata, plain, hr1, hr2, hrec, he⟩
      · exact ⟨hI, (fun h => nomatch h), fun h => nomatch h⟩

theorem searchProcessor_any (cfg : RConfig) (hc : SafeCodec cfg.codec) (file : List Byte) (run evt : W32) (st : EventState) (i : RecordInfo) (data : List Byte) (p : Nat)
    (hI : EvInv cfg file st.hdr st.evt) (hst : HeldAt file p i data) (h1 : i.dataLength < 2 ^ 32) (h2 : i.uncompressedLength < 2 ^ 32) :
    EvInv cfg file (searchProcessor cfg run evt st i data).1.hdr (searchProcessor cfg run evt st i data).1.evt ∧
    ((searchProcessor cfg run evt st i data).2 = .error .ub → Danger cfg file) ∧ ((searchProcessor cfg run evt st i data).2 = .error .diverge → Stuck cfg file) := by
  have hev := eventProcessor_any cfg hc file st i data p hI hst h1 h2
  unfold eventProcessor at hev
  unfold searchProcessor
  split
  · rename_i e he
    rw [he] at hev
    exact hev
  · rename_i plain hpl
    rw [hpl] at hev
    simp only at hev
    split
    · rename_i hn
      rw [if_pos hn] at hev
      exact hev
    · rename_i hn
      rw [if_neg hn] at hev
      split
      · rename_i hn2
        rw [if_pos hn2] at hev
        split
        · rename_i hh
          exact ⟨hI, (fun h => nomatch h), fun h => nomatch h⟩
        · rename_i hdr hh
          rw [hh] at hev
          simp only at hev
          split
          · rw [hh]; exact hev
          · exact ⟨hI, (fun h => nomatch h), fun h => nomatch h⟩
      · exact ⟨hI, (fun h => nomatch h), fun h => nomatch h⟩

theorem finish_danger (cfg : RConfig) {file : List Byte} {hdr : Option EventHeader} {e : EventData} (hI : EvInv cfg file hdr (some e)) (h : finishEvent cfg e = .error .ub) : Danger cfg file := by
  obtain ⟨hdata, data, h1, h2, h3, h4⟩ := hI.evt e rfl
  by_cases hw : WrongParent e.2
  · exact .parent hdata e.1 data e.2 h1 h2 h3 h4 hw
  · rcases finishEvent_closed cfg (decoded_closed cfg e.1 data h4 hw) with h' | ⟨e', h', _⟩ <;> (rw [h'] at h; cases h)

theorem decodeRun_any (cfg : RConfig) (hc : SafeCodec cfg.codec) (file : List Byte) (f : Str) (i : RecordInfo) (data : List Byte) (p : Nat) (hn : i.name = runRecordName)
    (hst : HeldAt file p i data) (h1 : i.dataLength < 2 ^ 32) (h2 : i.uncompressedLength < 2 ^ 32) :
    (decodeRun cfg f i data = .error .ub → Danger cfg file) ∧ (decodeRun cfg f i data = .error .diverge → Stuck cfg file) := by
  obtain ⟨hp1, hp2, hp3⟩ := plainData_any hc i data
  unfold decodeRun
  split
  · rename_i e he
    exact ⟨fun h => absurd (by cases h; exact he) hp1, fun h => absurd (by cases h; exact he) hp2⟩
  · rename_i plain hpl
    have hl := hp3 plain (by rw [hst.2.2]; exact h1) h2 hpl
    have hrec : Recorded cfg.codec file runRecordName plain := ⟨p, i, data, hst, hn, hpl⟩
    split
    · rename_i e he
      exact ⟨fun h => .run plain (Or.inl hrec) (readBlocks_ub _ _ tame_runDecoder _ (by cases h; exact he)),
        fun h => .block _ plain (Or.inl hrec) (readBlocks_diverge _ _ (fun b hb v => (tame_runDecoder b hb v).calm) _ hl (by cases h; exact he))⟩
    · rename_i rs hr
      simp only
      split
      · rename_i e he
        unfold Params.setStr Params.checked at he
        split at he
        · cases he; exact ⟨(fun h => nomatch h), fun h => nomatch h⟩
        · cases he
      · exact ⟨(fun h => nomatch h), fun h => nomatch h⟩

end Lcio
