import Verif.Lcio.DirectLemmas
/-
The summary in the file record, and what appending leaves as it was.
-/
namespace Lcio
open Sio Spec

variable {codec : Codec} {std : Std Pid}

/-! ## Numbers of events and runs -/

theorem chunk_inv (start : Nat) (prev : W64) (c : Chunk) (hc : c.Ok codec std start prev) :
    MapInv (c.map start) (c.entries start) ∧ (c.entries start).map (·.1) = c.puts.map Put.key := by
  have h := addAll_inv (c.entries start) {} [] MapInv.empty
  rw [List.nil_append] at h
  refine ⟨h, ?_⟩
  rw [← keysFrom_fst codec std _ _ hc.puts start]
  simp [Chunk.entries]

theorem filter_keys (ps : List Put) (hn : ∀ p ∈ ps, p.isEvent = true → 0 ≤ p.key.evt.toInt) :
    (ps.map Put.key).filter (fun k => decide (0 ≤ k.evt.toInt)) = (ps.filter Put.isEvent).map Put.key ∧
    (ps.map Put.key).filter (fun k => decide (k.evt.toInt < 0)) = (ps.filter fun p => !p.isEvent).map Put.key := by
  induction ps with
  | nil => exact ⟨rfl, rfl⟩
  | cons p ps ih =>
    obtain ⟨h1, h2⟩ := ih fun q hq => hn q (List.mem_cons_of_mem _ hq)
    cases p with
    | run hd buf =>
      have e : (Put.run hd buf).key.evt.toInt = -1 := by show (-1 : BitVec 32).toInt = -1; decide
      simp only [List.map_cons, List.filter_cons, e, Put.isEvent, h1, h2]
      simp
    | event hd cols buf =>
      have e := hn _ (by simp) (show (Put.event hd cols buf).isEvent = true from rfl)
      simp only [List.map_cons, List.filter_cons, h1, h2]
      have ev : (Put.event hd cols buf).isEvent = true := rfl
      simp [e, ev]

theorem chunk_counts (start : Nat) (prev : W64) (c : Chunk) (hc : c.Ok codec std start prev)
    (hn : ∀ p ∈ c.puts, p.isEvent = true → 0 ≤ p.key.evt.toInt) :
    (c.map start).nEvt = eventsIn c.puts ∧ (c.map start).nRun = runsIn c.puts := by
  obtain ⟨hinv, hk⟩ := chunk_inv start prev c hc
  have hreg := chunk_entries_reg start c hc.puts (by
    intro p hp
    cases p with
    | run hd buf => show -1 ≤ (-1 : BitVec 32).toInt; decide
    | event hd cols buf => have := hn _ hp rfl; omega)
  obtain ⟨f1, f2⟩ := filter_keys c.puts hn
  constructor
  · rw [hinv.evts, hinv.count hreg, hk, f1]; rfl
  · rw [hinv.runs, hinv.count hreg, hk, f2]; rfl

theorem eventsIn_le (ps : List Put) : eventsIn ps ≤ ps.length ∧ runsIn ps ≤ ps.length := by
  have hd : ∀ l : List RunEvent, (distinct l).length ≤ l.length := by
    intro l
    induction l with
    | nil => simp [distinct]
    | cons a l ih => unfold distinct; split <;> simp <;> omega
  constructor
  · refine Nat.le_trans (hd _) ?_
    rw [List.length_map]; exact List.length_filter_le _ _
  · refine Nat.le_trans (hd _) ?_
    rw [List.length_map]; exact List.length_filter_le _ _

theorem history_counts {cs : List Chunk} {last f : Option RandomAccess} (h : History codec std cs last f)
    (hn : ∀ c ∈ cs, ∀ p ∈ c.puts, p.isEvent = true → 0 ≤ p.key.evt.toInt) :
    (f.getD newFileRecord).nEvt + (last.map (·.nEvt)).getD 0 = BitVec.ofNat 32 (2 * (cs.map fun c => eventsIn c.puts).sum) ∧
    (f.getD newFileRecord).nRun + (last.map (·.nRun)).getD 0 = BitVec.ofNat 32 (2 * (cs.map fun c => runsIn c.puts).sum) := by
  induction h with
  | nil => exact ⟨rfl, rfl⟩
  | snoc cs last f c h hc ih =>
    obtain ⟨h1, h2⟩ := ih fun c hc => hn c (List.mem_append_left _ hc)
    obtain ⟨h3, h4⟩ := chunk_counts _ _ c hc (hn c (by simp))
    have key : ∀ (fo lo : W32) (n m : Nat), fo + lo = BitVec.ofNat 32 (2 * n) → fo + lo + BitVec.ofNat 32 m + BitVec.ofNat 32 m = BitVec.ofNat 32 (2 * (n + m)) := by
      intro fo lo n m e
      rw [e]
      apply BitVec.eq_of_toNat_eq
      simp only [BitVec.toNat_add, BitVec.toNat_ofNat]
      omega
    simp only [List.map_append, List.map_cons, List.map_nil, List.sum_append, List.sum_cons, List.sum_nil, Nat.add_zero]
    constructor
    · rw [← key _ _ _ (eventsIn c.puts) h1]
      cases last <;> simp [closing, fileRecordStep, Chunk.access, h3]
    · rw [← key _ _ _ (runsIn c.puts) h2]
      cases last <;> simp [closing, fileRecordStep, Chunk.access, h4]

/-! ## The smallest -/

theorem step_min (f ra : RandomAccess) : ((fileRecordStep f ra).minRE = f.minRE ∨ (fileRecordStep f ra).minRE = ra.minRE) ∧
    (fileRecordStep f ra).minRE.rank ≤ f.minRE.rank ∧ (fileRecordStep f ra).minRE.rank ≤ ra.minRE.rank := by
  unfold fileRecordStep
  simp only
  split
  · next h => rw [RunEvent.lt_iff] at h; exact ⟨.inr rfl, by omega, by omega⟩
  · next h => rw [RunEvent.lt_iff] at h; exact ⟨.inl rfl, by omega, by omega⟩

/-- One of the keys is this one, and no key is smaller. -/
def Least (ps : List Put) (k : RunEvent) : Prop := (∃ p ∈ ps, p.key = k) ∧ ∀ p ∈ ps, k.rank ≤ p.key.rank
def Greatest (ps : List Put) (k : RunEvent) : Prop := (∃ p ∈ ps, p.key = k) ∧ ∀ p ∈ ps, p.key.rank ≤ k.rank

theorem chunk_extremes (start : Nat) (prev : W64) (c : Chunk) (hc : c.Ok codec std start prev) (hreg : ∀ p ∈ c.puts, -1 ≤ p.key.evt.toInt) :
    Least c.puts (c.map start).minRunEvent ∧ Greatest c.puts (c.map start).maxRunEvent := by
  obtain ⟨hinv, hk⟩ := chunk_inv start prev c hc
  have hreg' := chunk_entries_reg start c hc.puts hreg
  have hkeys : ∀ k, k ∈ (c.map start).map.map (·.1) ↔ k ∈ c.puts.map Put.key := by
    intro k; rw [← hk]; exact hinv.keys_iff hreg' k
  have hne : (c.map start).map ≠ [] := by
    intro h0
    have h1 := hkeys
    rw [h0] at h1
    cases hp : c.puts with
    | nil => exact hc.some hp
    | cons p ps => have := (h1 p.key).2 (by rw [hp]; simp); simp at this
  refine ⟨⟨?_, ?_⟩, ?_, ?_⟩
  · exact List.mem_map.1 ((hkeys _).1 (minRunEvent_mem _ hne))
  · intro p hp
    obtain ⟨e, he, he2⟩ := List.mem_map.1 ((hkeys p.key).2 (List.mem_map.2 ⟨p, hp, rfl⟩))
    have := min_least _ hinv.ordered e he
    rw [← Bool.not_eq_true, RunEvent.lt_iff, he2] at this
    omega
  · exact List.mem_map.1 ((hkeys _).1 (maxRunEvent_mem _ hne))
  · intro p hp
    obtain ⟨e, he, he2⟩ := List.mem_map.1 ((hkeys p.key).2 (List.mem_map.2 ⟨p, hp, rfl⟩))
    have := max_greatest _ hinv.ordered e he
    rw [← Bool.not_eq_true, RunEvent.lt_iff, he2] at this
    omega

theorem put_min (p : Put) (hp : -1 ≤ p.key.evt.toInt) (h : (⟨2147483647, 2147483647⟩ : RunEvent).rank ≤ p.key.rank) : p.key = ⟨2147483647, 2147483647⟩ := by
  apply rank_inj _ _ hp (by decide)
  have : p.key.rank ≤ (⟨2147483647, 2147483647⟩ : RunEvent).rank := by
    have h1 := toInt_range p.key.run
    have h2 := toInt_range p.key.evt
    have h3 : (2147483647 : W32).toInt = 2147483647 := by decide
    unfold RunEvent.rank at *
    simp only [h3] at *
    split <;> omega
  omega

theorem Least.mono {ps qs : List Put} {k : RunEvent} (h : Least ps k) (hs : ∀ q ∈ qs, q ∈ ps) (k' : RunEvent) (h' : Least qs k') : k.rank ≤ k'.rank := by
  obtain ⟨⟨q, hq, rfl⟩, -⟩ := h'
  exact h.2 q (hs q hq)

theorem history_min {cs : List Chunk} {last f : Option RandomAccess} (h : History codec std cs last f)
    (hreg : ∀ c ∈ cs, ∀ p ∈ c.puts, -1 ≤ p.key.evt.toInt) :
    (∀ l, last = some l → ∃ p ∈ cs.flatMap Chunk.puts, p.key = l.minRE) ∧ (cs = [] → f = none ∧ last = none) ∧
    (cs ≠ [] → ∃ a, f = some a ∧ Least (cs.flatMap Chunk.puts) a.minRE) := by
  induction h with
  | nil => simp
  | snoc cs last f c h hc ih =>
    obtain ⟨i1, i0, i2⟩ := ih fun c hc => hreg c (List.mem_append_left _ hc)
    obtain ⟨⟨e1, e2⟩, -⟩ := chunk_extremes _ _ c hc (hreg c (by simp))
    have hfl : (cs ++ [c]).flatMap Chunk.puts = cs.flatMap Chunk.puts ++ c.puts := by simp
    rw [hfl]
    refine ⟨?_, by simp, fun _ => ⟨_, rfl, ?_⟩⟩
    · intro l hl
      cases hl
      obtain ⟨p, hp, hp2⟩ := e1
      exact ⟨p, List.mem_append_right _ hp, hp2⟩
    · have hclose : ∀ ra, (closing f last ra).minRE = ((last.toList ++ [ra]).foldl fileRecordStep (f.getD newFileRecord)).minRE := fun _ => rfl
      rw [hclose]
      by_cases hcs : cs = []
      · obtain ⟨rfl, rfl⟩ := i0 hcs
        subst hcs
        simp only [Option.toList, List.nil_append, List.foldl_cons, List.foldl_nil, Option.getD_none, List.flatMap_nil]
        obtain ⟨s1, s2, s3⟩ := step_min newFileRecord (c.access (sizeOf []) (prevOf none))
        obtain ⟨p, hp, hp2⟩ := e1
        rcases s1 with s1 | s1
        · have h3 : (c.access (sizeOf []) (prevOf none)).minRE = p.key := hp2.symm
          rw [s1, h3] at s3
          have := put_min p (hreg c (by simp) p hp) s3
          rw [s1]
          refine ⟨⟨p, hp, this⟩, ?_⟩
          intro q hq
          have h4 := e2 q hq
          rw [← hp2, this] at h4
          exact h4
        · rw [s1]
          exact ⟨⟨p, hp, hp2⟩, e2⟩
      · obtain ⟨a, rfl, l1, l2⟩ := i2 hcs
        have base : ∀ g : RandomAccess, ((∃ p ∈ cs.flatMap Chunk.puts, p.key = g.minRE) ∧ g.minRE.rank ≤ a.minRE.rank) →
            Least (cs.flatMap Chunk.puts ++ c.puts) (fileRecordStep g (c.access (sizeOf cs) (prevOf last))).minRE := by
          rintro g ⟨⟨p, hp, hp2⟩, hg⟩
          obtain ⟨s1, s2, s3⟩ := step_min g (c.access (sizeOf cs) (prevOf last))
          refine ⟨?_, ?_⟩
          · rcases s1 with s1 | s1
            · exact ⟨p, List.mem_append_left _ hp, by rw [s1]; exact hp2⟩
            · obtain ⟨q, hq, hq2⟩ := e1
              exact ⟨q, List.mem_append_right _ hq, by rw [s1]; exact hq2⟩
          · intro q hq
            rcases List.mem_append.1 hq with hq | hq
            · have := l2 q hq; omega
            · have := e2 q hq
              have h3 : (c.access (sizeOf cs) (prevOf last)).minRE = (c.map (sizeOf cs)).minRunEvent := rfl
              rw [h3] at s3
              omega
        cases last with
        | none =>
          simp only [Option.toList, List.nil_append, List.foldl_cons, List.foldl_nil, Option.getD_some]
          exact base a ⟨l1, Int.le_refl _⟩
        | some l =>
          simp only [Option.toList, List.cons_append, List.nil_append, List.foldl_cons, List.foldl_nil, Option.getD_some]
          apply base
          obtain ⟨s1, s2, s3⟩ := step_min a l
          refine ⟨?_, s2⟩
          rcases s1 with s1 | s1
          · rw [s1]; exact l1
          · rw [s1]; exact i1 l rfl

/-! ## The largest -/

theorem toLong_append (a : RunEvent) : a.toLong = a.run ++ a.evt := by
  unfold RunEvent.toLong
  apply BitVec.eq_of_getLsbD_eq
  intro i hi
  rw [BitVec.getLsbD_append]
  simp only [BitVec.getLsbD_or, BitVec.getLsbD_and, BitVec.getLsbD_shiftLeft, BitVec.getLsbD_signExtend]
  have hm : (4294967295 : W64).getLsbD i = decide (i < 32) := by
    have : (4294967295 : W64) = (BitVec.allOnes 32).setWidth 64 := by decide
    rw [this, BitVec.getLsbD_setWidth, BitVec.getLsbD_allOnes]
    simp; omega
  rw [hm]
  by_cases h : i < 32
  · simp [h, hi]
  · have h2 : i - 32 < 32 := by omega
    simp [h, hi, h2]
    omega

theorem toLong_toInt (a : RunEvent) (h : 0 ≤ a.run.toInt) (h2 : 0 ≤ a.evt.toInt) : a.toLong.toInt = a.run.toInt * 2 ^ 32 + a.evt.toInt := by
  have h3 := toInt_range a.run
  have h4 := toInt_range a.evt
  have e1 : a.run.toInt = a.run.toNat := by rw [BitVec.toInt_eq_toNat_cond] at *; omega
  have e2 : a.evt.toInt = a.evt.toNat := by rw [BitVec.toInt_eq_toNat_cond] at *; omega
  have e3 : a.toLong.toNat = 2 ^ 32 * a.run.toNat + a.evt.toNat := by
    rw [toLong_append, BitVec.toNat_append, Nat.shiftLeft_eq, Nat.mul_comm, ← Nat.two_pow_add_eq_or_of_lt (by omega : a.evt.toNat < 2 ^ 32)]
  rw [e1] at h3
  rw [BitVec.toInt_eq_toNat_of_lt (by rw [e3]; omega), e3, e1, e2]
  omega

/-- An event number and a run number that are not negative. -/
def Natural (k : RunEvent) : Prop := 0 ≤ k.run.toInt ∧ 0 ≤ k.evt.toInt

theorem natural_order (a b : RunEvent) (ha : Natural a) (hb : Natural b) : a.toLong.slt b.toLong = true ↔ a.rank < b.rank := by
  rw [BitVec.slt_eq_decide, toLong_toInt a ha.1 ha.2, toLong_toInt b hb.1 hb.2]
  unfold RunEvent.rank
  have := ha.2
  have := hb.2
  rw [if_neg (by omega), if_neg (by omega)]
  simp only [decide_eq_true_eq]
  omega

theorem step_max (f ra : RandomAccess) (h1 : Natural f.maxRE) (h2 : Natural ra.maxRE) :
    ((fileRecordStep f ra).maxRE = f.maxRE ∨ (fileRecordStep f ra).maxRE = ra.maxRE) ∧
    f.maxRE.rank ≤ (fileRecordStep f ra).maxRE.rank ∧ ra.maxRE.rank ≤ (fileRecordStep f ra).maxRE.rank := by
  unfold fileRecordStep
  simp only
  split
  · next h => rw [natural_order _ _ h1 h2] at h; exact ⟨.inr rfl, by omega, by omega⟩
  · next h => rw [natural_order _ _ h1 h2] at h; exact ⟨.inl rfl, by omega, by omega⟩

theorem chunk_max (start : Nat) (prev : W64) (c : Chunk) (hc : c.Ok codec std start prev)
    (hn : ∀ p ∈ c.puts, p.isEvent = true → Natural p.key) (he : ∃ p ∈ c.puts, p.isEvent = true) :
    Greatest c.puts (c.map start).maxRunEvent ∧ Natural (c.map start).maxRunEvent := by
  have hreg : ∀ p ∈ c.puts, -1 ≤ p.key.evt.toInt := by
    intro p hp
    cases p with
    | run hd buf => show -1 ≤ (-1 : BitVec 32).toInt; decide
    | event hd cols buf => have := (hn _ hp rfl).2; omega
  obtain ⟨-, hg⟩ := chunk_extremes start prev c hc hreg
  refine ⟨hg, ?_⟩
  obtain ⟨⟨p, hp, hp2⟩, h2⟩ := hg
  obtain ⟨q, hq, hq2⟩ := he
  have h3 := h2 q hq
  rw [← hp2] at h3 ⊢
  apply hn p hp
  cases p with
  | event => rfl
  | run hd buf =>
    have h4 := (hn q hq hq2).2
    have e : (Put.run hd buf).key.evt.toInt = -1 := by show (-1 : BitVec 32).toInt = -1; decide
    have h5 := toInt_range q.key.run
    have h6 := toInt_range (Put.run hd buf).key.run
    unfold RunEvent.rank at h3
    rw [if_neg (by omega), e, if_pos (by omega)] at h3
    omega

theorem put_max (k : RunEvent) (hk : Natural k) (h : k.rank ≤ (RunEvent.ofLong 0).rank) : k = RunEvent.ofLong 0 := by
  have e : RunEvent.ofLong 0 = ⟨0, 0⟩ := by decide
  rw [e] at h ⊢
  have h1 := hk.1
  have h2 := hk.2
  apply rank_inj _ _ (by omega) (by decide)
  have h3 : (⟨0, 0⟩ : RunEvent).rank = 2 ^ 32 + 2 ^ 31 * 2 ^ 32 := by decide
  rw [h3] at h ⊢
  unfold RunEvent.rank at h ⊢
  rw [if_neg (by omega)] at h ⊢
  omega

theorem natural_zero : Natural (RunEvent.ofLong 0) := by unfold Natural; decide

theorem history_max {cs : List Chunk} {last f : Option RandomAccess} (h : History codec std cs last f)
    (hn : ∀ c ∈ cs, ∀ p ∈ c.puts, p.isEvent = true → Natural p.key) (he : ∀ c ∈ cs, ∃ p ∈ c.puts, p.isEvent = true) :
    (∀ l, last = some l → Natural l.maxRE ∧ ∃ p ∈ cs.flatMap Chunk.puts, p.key = l.maxRE) ∧ (cs = [] → f = none ∧ last = none) ∧
    (cs ≠ [] → ∃ a, f = some a ∧ Greatest (cs.flatMap Chunk.puts) a.maxRE ∧ Natural a.maxRE) := by
  induction h with
  | nil => simp
  | snoc cs last f c h hc ih =>
    obtain ⟨i1, i0, i2⟩ := ih (fun c hc => hn c (List.mem_append_left _ hc)) (fun c hc => he c (List.mem_append_left _ hc))
    obtain ⟨⟨e1, e2⟩, e3⟩ := chunk_max _ _ c hc (hn c (by simp)) (he c (by simp))
    have hfl : (cs ++ [c]).flatMap Chunk.puts = cs.flatMap Chunk.puts ++ c.puts := by simp
    rw [hfl]
    refine ⟨?_, by simp, fun _ => ⟨_, rfl, ?_⟩⟩
    · intro l hl
      cases hl
      obtain ⟨p, hp, hp2⟩ := e1
      exact ⟨e3, p, List.mem_append_right _ hp, hp2⟩
    · have hclose : ∀ ra, (closing f last ra).maxRE = ((last.toList ++ [ra]).foldl fileRecordStep (f.getD newFileRecord)).maxRE := fun _ => rfl
      rw [hclose]
      have h3 : ∀ start prev, (c.access start prev).maxRE = (c.map start).maxRunEvent := fun _ _ => rfl
      by_cases hcs : cs = []
      · obtain ⟨rfl, rfl⟩ := i0 hcs
        subst hcs
        simp only [Option.toList, List.nil_append, List.foldl_cons, List.foldl_nil, Option.getD_none, List.flatMap_nil]
        obtain ⟨s1, s2, s3⟩ := step_max newFileRecord (c.access (sizeOf []) (prevOf none)) natural_zero e3
        obtain ⟨p, hp, hp2⟩ := e1
        have s4 : (fileRecordStep newFileRecord (c.access (sizeOf []) (prevOf none))).maxRE = (c.map (sizeOf [])).maxRunEvent := by
          rcases s1 with s1 | s1
          · rw [s1, h3] at s3
            rw [s1]
            exact (put_max _ e3 s3).symm
          · rw [s1]; rfl
        rw [s4]
        exact ⟨⟨⟨p, hp, hp2⟩, e2⟩, e3⟩
      · obtain ⟨a, rfl, ⟨l1, l2⟩, l3⟩ := i2 hcs
        have base : ∀ g : RandomAccess, ((∃ p ∈ cs.flatMap Chunk.puts, p.key = g.maxRE) ∧ a.maxRE.rank ≤ g.maxRE.rank ∧ Natural g.maxRE) →
            Greatest (cs.flatMap Chunk.puts ++ c.puts) (fileRecordStep g (c.access (sizeOf cs) (prevOf last))).maxRE ∧
            Natural (fileRecordStep g (c.access (sizeOf cs) (prevOf last))).maxRE := by
          rintro g ⟨⟨p, hp, hp2⟩, hg, hgn⟩
          obtain ⟨s1, s2, s3⟩ := step_max g (c.access (sizeOf cs) (prevOf last)) hgn e3
          refine ⟨⟨?_, ?_⟩, ?_⟩
          · rcases s1 with s1 | s1
            · exact ⟨p, List.mem_append_left _ hp, by rw [s1]; exact hp2⟩
            · obtain ⟨q, hq, hq2⟩ := e1
              exact ⟨q, List.mem_append_right _ hq, by rw [s1]; exact hq2⟩
          · intro q hq
            rcases List.mem_append.1 hq with hq | hq
            · have := l2 q hq; omega
            · have := e2 q hq
              rw [h3] at s3
              omega
          · rcases s1 with s1 | s1
            · rw [s1]; exact hgn
            · rw [s1]; exact e3
        cases last with
        | none =>
          simp only [Option.toList, List.nil_append, List.foldl_cons, List.foldl_nil, Option.getD_some]
          exact base a ⟨l1, Int.le_refl _, l3⟩
        | some l =>
          simp only [Option.toList, List.cons_append, List.nil_append, List.foldl_cons, List.foldl_nil, Option.getD_some]
          apply base
          obtain ⟨j1, j2⟩ := i1 l rfl
          obtain ⟨s1, s2, s3⟩ := step_max a l l3 j1
          refine ⟨?_, s2, ?_⟩
          · rcases s1 with s1 | s1
            · rw [s1]; exact l1
            · rw [s1]; exact j2
          · rcases s1 with s1 | s1
            · rw [s1]; exact l3
            · rw [s1]; exact j1

/-- The number of events in the file record. -/
theorem history_total {cs : List Chunk} {c : Chunk} {last f : Option RandomAccess} (h : History codec std (cs ++ [c]) last f)
    (hn : ∀ c' ∈ cs ++ [c], ∀ p ∈ c'.puts, p.isEvent = true → 0 ≤ p.key.evt.toInt) :
    ∃ a, f = some a ∧ a.nEvt = BitVec.ofNat 32 (2 * (cs.map fun c => eventsIn c.puts).sum + eventsIn c.puts) ∧
      a.nRun = BitVec.ofNat 32 (2 * (cs.map fun c => runsIn c.puts).sum + runsIn c.puts) := by
  generalize hcs : cs ++ [c] = ds at h
  cases h with
  | nil => simp at hcs
  | snoc cs' last f c' h hc =>
    have := List.append_inj' hcs rfl
    obtain ⟨rfl, e2⟩ := this
    cases e2
    obtain ⟨h1, h2⟩ := history_counts h fun c hc => hn c (List.mem_append_left _ hc)
    obtain ⟨h3, h4⟩ := chunk_counts _ _ c hc (hn c (by simp))
    refine ⟨_, rfl, ?_, ?_⟩
    · rw [BitVec.ofNat_add, ← h1]
      cases last <;> simp [closing, fileRecordStep, Chunk.access, h3]
    · rw [BitVec.ofNat_add, ← h2]
      cases last <;> simp [closing, fileRecordStep, Chunk.access, h4]

theorem history_ne {cs : List Chunk} {last : Option RandomAccess} {a : RandomAccess} (h : History codec std cs last (some a)) : cs ≠ [] := by
  generalize hf : some a = f at h
  cases h with
  | nil => cases hf
  | snoc => simp

/-! ## Appending -/

theorem Layout.split {ps : List Put} {rs : List Rec} (h : Layout codec std ps rs) (pre : List Put) (p : Put) (post : List Put) (e : ps = pre ++ p :: post) :
    ∃ ra rb, rs = ra ++ rb ∧ Layout codec std (p :: post) rb := by
  induction h generalizing pre with
  | nil => simp at e
  | other r ps rs hr h1 h2 h3 h ih =>
    obtain ⟨ra, rb, rfl, h4⟩ := ih pre e
    exact ⟨r :: ra, rb, rfl, h4⟩
  | put q g ps rs hp h ih =>
    cases pre with
    | nil =>
      cases e
      exact ⟨[], g ++ rs, rfl, .put _ _ _ _ hp h⟩
    | cons x pre =>
      cases e
      obtain ⟨ra, rb, rfl, h4⟩ := ih pre rfl
      exact ⟨g ++ ra, rb, by simp, h4⟩

theorem Layout.append {ps : List Put} {rs : List Rec} (h : Layout codec std ps rs) {qs : List Put} {ss : List Rec} (h' : Layout codec std qs ss) :
    Layout codec std (ps ++ qs) (rs ++ ss) := by
  induction h with
  | nil => exact h'
  | other r ps rs hr h1 h2 h3 h ih => exact .other r _ _ hr h1 h2 h3 ih
  | put q g ps rs hp h ih =>
    rw [List.append_assoc]
    exact .put q g _ _ hp ih

end Lcio
