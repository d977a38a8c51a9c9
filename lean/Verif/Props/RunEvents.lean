import Verif.Lcio.RunEventLemmas
/-
C21 - C24: keys and map of runs and events.
-/
namespace Props
open Sio Spec Lcio

/-- **C21**. Converting a pair of 32-bit numbers to 64 bits and back gives the pair, so different pairs have different 64-bit keys. -/
theorem C21_key_encoding (a b : RunEvent) : RunEvent.ofLong a.toLong = a ∧ (a.toLong = b.toLong → a = b) := by
  refine ⟨RunEvent.ofLong_toLong a, fun h => ?_⟩
  rw [← RunEvent.ofLong_toLong a, h, RunEvent.ofLong_toLong]

/-- **C21** the other way: the 64-bit form determines nothing but the pair. -/
theorem C21_key_decoding (x : W64) : (RunEvent.ofLong x).toLong = x := by
  unfold RunEvent.ofLong RunEvent.toLong
  have m : ∀ i, i < 32 → (0xffffffff#64).getLsbD i = true := by decide
  have m2 : ∀ i, i < 64 → 32 ≤ i → (0xffffffff#64).getLsbD i = false := by decide
  apply BitVec.eq_of_getLsbD_eq
  intro i hi
  simp only [BitVec.getLsbD_or, BitVec.getLsbD_shiftLeft, BitVec.getLsbD_signExtend, BitVec.getLsbD_and, BitVec.getLsbD_setWidth,
    BitVec.getLsbD_sshiftRight, BitVec.ofNat_eq_ofNat]
  by_cases h : i < 32
  · rw [m i h]; simp [h, hi]
  · have h1 : i - 32 < 32 := by omega
    rw [m2 i hi (by omega), m (i - 32) h1]
    have h2 : 32 + (i - 32) = i := by omega
    have h3 : ¬ 64 ≤ i - 32 := by omega
    simp [h, h1, h2, h3, hi]
    omega

example : (RunEvent.mk (-5) (-1)).toLong = 0xfffffffbffffffff#64 ∧ RunEvent.ofLong 0xfffffffbffffffff#64 = ⟨-5, -1⟩ := by decide

/-- **C22**: the order of the keys. All run headers (negative event number) come before all events; run headers are ordered by run number; events
by run number and then by event number. -/
theorem C22_order (a b : RunEvent) :
    (RunEvent.lt a b = true ↔
      (a.evt.toInt < 0 ∧ 0 ≤ b.evt.toInt) ∨
      (a.evt.toInt < 0 ∧ b.evt.toInt < 0 ∧ a.run.toInt < b.run.toInt) ∨
      (0 ≤ a.evt.toInt ∧ 0 ≤ b.evt.toInt ∧
        (a.run.toInt < b.run.toInt ∨ (a.run.toInt = b.run.toInt ∧ a.evt.toInt < b.evt.toInt)))) := by
  rw [RunEvent.lt_iff]
  have ha := toInt_range a.run
  have hb := toInt_range b.run
  have ha2 := toInt_range a.evt
  have hb2 := toInt_range b.evt
  unfold RunEvent.rank
  split <;> split <;> omega

/-- **C22**: it is a strict weak ordering: irreflexive, transitive, and incomparability is transitive. -/
theorem C22_strict_weak (a b c : RunEvent) :
    RunEvent.lt a a = false ∧
    (RunEvent.lt a b = true → RunEvent.lt b c = true → RunEvent.lt a c = true) ∧
    (RunEvent.lt a b = false → RunEvent.lt b a = false → RunEvent.lt b c = false → RunEvent.lt c b = false →
      RunEvent.lt a c = false ∧ RunEvent.lt c a = false) := by
  refine ⟨RunEvent.strictWeak.irrefl a, RunEvent.strictWeak.trans a b c, ?_⟩
  simp only [← Bool.not_eq_true, RunEvent.lt_iff]
  omega

/-- **C22**: keys with event number at least -1 are incomparable only if they are equal. -/
theorem C22_linear (a b : RunEvent) (ha : -1 ≤ a.evt.toInt) (hb : -1 ≤ b.evt.toInt)
    (h1 : RunEvent.lt a b = false) (h2 : RunEvent.lt b a = false) : a = b := by
  apply rank_inj a b ha hb
  simp only [← Bool.not_eq_true, RunEvent.lt_iff] at h1 h2
  omega

example : RunEvent.lt ⟨7, -1⟩ ⟨-3, 0⟩ = true ∧ RunEvent.lt ⟨-3, 5⟩ ⟨2, 0⟩ = true ∧ RunEvent.lt ⟨2, 0⟩ ⟨2, 1⟩ = true := by decide

/-- **C23**, look-up: after any additions (and clears), the position reported for a pair is that of its last addition, and `npos` if
it was not added. -/
theorem C23_lookup (ops : List MapOp) (hreg : regular ops) (re : RunEvent) (hre : -1 ≤ re.evt.toInt) :
    (build ops).getPosition re = (lastPosition (additions ops) re).getD npos := by
  have h := build_inv ops
  unfold RunEventMap.getPosition
  rw [RunEvent.ofLong_toLong, h.find]
  unfold lastPosition
  congr 2
  have : ∀ (l : List (RunEvent × W64)), (∀ x ∈ l, -1 ≤ x.1.evt.toInt) →
      (l.find? fun x => eqv RunEvent.lt x.1 re) = l.find? fun x => x.1 == re := by
    intro l
    induction l with
    | nil => intro; rfl
    | cons x l ih =>
      intro hl
      rw [List.find?_cons, List.find?_cons, ih (fun y hy => hl y (by simp [hy]))]
      have : eqv RunEvent.lt x.1 re = (x.1 == re) := by
        rw [Bool.eq_iff_iff, RunEvent.eqv_iff, beq_iff_eq]
        exact ⟨fun h => rank_inj _ _ (hl x (by simp)) hre h, fun h => by rw [h]⟩
      rw [this]
  exact this _ (fun x hx => hreg x (by simpa using hx))

/-- **C23**, counts: the numbers of runs and events are the numbers of distinct run headers and events added. -/
theorem C23_counts (ops : List MapOp) (hreg : regular ops) :
    (build ops).nRun = (distinct (((additions ops).map (·.1)).filter fun k => k.evt == -1)).length ∧
    (build ops).nEvt = (distinct (((additions ops).map (·.1)).filter fun k => k.evt != -1)).length := by
  have h := build_inv ops
  have hiff : ∀ k ∈ (additions ops).map (·.1), (k.evt.toInt < 0 ↔ k.evt = -1) := by
    intro k hk
    obtain ⟨x, hx, rfl⟩ := List.mem_map.1 hk
    have := hreg x hx
    constructor
    · intro h'
      apply BitVec.eq_of_toInt_eq
      rw [show (-1 : W32).toInt = -1 from rfl]; omega
    · intro h'; rw [h']; decide
  constructor
  · rw [h.runs, h.count hreg]
    congr 2
    apply List.filter_congr
    intro k hk
    have := hiff k hk
    rw [Bool.eq_iff_iff]; simpa using this
  · rw [h.evts, h.count hreg]
    congr 2
    apply List.filter_congr
    intro k hk
    have := hiff k hk
    rw [Bool.eq_iff_iff]
    simp only [decide_eq_true_eq, bne_iff_ne, ne_eq, ← this]
    omega

/-- A history with a clear, two runs, a repeated event and a repeated run header. -/
def someOps : List MapOp :=
  [.add ⟨9, 9⟩ 1, .clear, .add ⟨4, -1⟩ 10, .add ⟨4, 0⟩ 20, .add ⟨-2, -1⟩ 30, .add ⟨4, 7⟩ 40, .add ⟨-2, 3⟩ 50, .add ⟨4, 0⟩ 60, .add ⟨4, -1⟩ 70]

example : regular someOps ∧ (build someOps).nRun = 2 ∧ (build someOps).nEvt = 3 ∧ (build someOps).getPosition ⟨4, 0⟩ = 60 ∧
    (build someOps).getPosition ⟨9, 9⟩ = npos := by
  refine ⟨?_, by decide +kernel⟩
  unfold regular
  decide

/-- **C24**. `getRuns` lists the runs that were added, in increasing order and once each; `getEvents` lists the events that were added, in
increasing order of run and event number and once each. -/
theorem C24_listing (ops : List MapOp) (hreg : regular ops) :
    ∃ runs evts, (build ops).getRuns = .ok runs ∧ (build ops).getEvents = .ok evts ∧
      runs.Pairwise (fun a b => a.toInt < b.toInt) ∧
      (∀ r, r ∈ runs ↔ ∃ pos, (⟨r, -1⟩, pos) ∈ additions ops) ∧
      evts.Pairwise (fun a b => a.1.toInt < b.1.toInt ∨ (a.1.toInt = b.1.toInt ∧ a.2.toInt < b.2.toInt)) ∧
      (∀ r e, (r, e) ∈ evts ↔ e ≠ -1 ∧ ∃ pos, (⟨r, e⟩, pos) ∈ additions ops) := by
  have h := build_inv ops
  have hsplit := split_runs _ h.ordered
  have hk := h.keys_iff hreg
  have hregm : ∀ e ∈ (build ops).map, -1 ≤ e.1.evt.toInt := by
    intro e he
    have := (hk e.1).1 (List.mem_map_of_mem he)
    obtain ⟨x, hx, hxe⟩ := List.mem_map.1 this
    rw [← hxe]; exact hreg x hx
  have hneg : ∀ e ∈ (build ops).map, (e.1.evt.toInt < 0 ↔ e.1.evt = -1) := by
    intro e he
    have := hregm e he
    constructor
    · intro h'
      apply BitVec.eq_of_toInt_eq
      rw [show (-1 : W32).toInt = -1 from rfl]; omega
    · intro h'; rw [h']; decide
  have hsum : (build ops).nRun + (build ops).nEvt = (build ops).map.length := by
    rw [h.runs, h.evts]
    have h1 := List.length_eq_countP_add_countP (fun k : RunEvent => decide (k.evt.toInt < 0)) (l := (build ops).map.map (·.1))
    rw [List.length_map] at h1
    rw [h1]
    congr 1
    apply List.countP_congr
    intro k _
    simp
  have hdrop : ((build ops).map.drop (build ops).nRun).take (build ops).nEvt = (build ops).map.filter (fun e => decide (0 ≤ e.1.evt.toInt)) := by
    rw [List.take_of_length_le (by rw [List.length_drop]; omega), h.runs, hsplit.2]
  have hadd : ∀ k : RunEvent, k ∈ (additions ops).map (·.1) ↔ ∃ pos, (k, pos) ∈ additions ops := by
    intro k
    rw [List.mem_map]
    constructor
    · rintro ⟨x, hx, rfl⟩; exact ⟨x.2, hx⟩
    · rintro ⟨pos, hx⟩; exact ⟨_, hx, rfl⟩
  refine ⟨((build ops).map.filter (fun e => decide (e.1.evt.toInt < 0))).map (fun e => e.1.run),
    ((build ops).map.filter (fun e => decide (0 ≤ e.1.evt.toInt))).map (fun e => (e.1.run, e.1.evt)), ?_, ?_, ?_, ?_, ?_, ?_⟩
  · unfold RunEventMap.getRuns
    rw [if_neg (by omega), h.runs, hsplit.1, if_pos]
    rw [List.all_eq_true]
    intro e he
    rw [List.mem_filter] at he
    rw [beq_iff_eq, ← hneg e he.1]
    simpa using he.2
  · unfold RunEventMap.getEvents
    rw [if_neg (by omega)]
    simp only [hdrop]
    rw [if_pos]
    rw [List.all_eq_true]
    intro e he
    rw [List.mem_filter] at he
    have h2 : 0 ≤ e.1.evt.toInt := by simpa using he.2
    rw [bne_iff_ne, ne_eq, ← hneg e he.1]
    omega
  · rw [List.pairwise_map]
    refine (h.ordered.filter _).imp_of_mem ?_
    intro a b ha hb hab
    rw [C22_order] at hab
    have h1 := (List.mem_filter.1 ha).2
    have h2 := (List.mem_filter.1 hb).2
    simp only [decide_eq_true_eq] at h1 h2
    omega
  · intro r
    rw [← hadd ⟨r, -1⟩, ← hk, List.mem_map, List.mem_map]
    constructor
    · rintro ⟨e, he, rfl⟩
      rw [List.mem_filter] at he
      have : e.1.evt = -1 := (hneg e he.1).1 (by simpa using he.2)
      refine ⟨e, he.1, ?_⟩
      rw [← this]
    · rintro ⟨e, he, hee⟩
      refine ⟨e, List.mem_filter.2 ⟨he, ?_⟩, by rw [hee]⟩
      rw [hee]; show decide ((-1 : W32).toInt < 0) = true; decide
  · rw [List.pairwise_map]
    refine (h.ordered.filter _).imp_of_mem ?_
    intro a b ha hb hab
    rw [C22_order] at hab
    have h1 := (List.mem_filter.1 ha).2
    have h2 := (List.mem_filter.1 hb).2
    simp only [decide_eq_true_eq] at h1 h2
    simp only
    omega
  · intro r e
    rw [← hadd ⟨r, e⟩, ← hk, List.mem_map, List.mem_map]
    constructor
    · rintro ⟨x, hx, hxe⟩
      rw [List.mem_filter] at hx
      have h0 : 0 ≤ x.1.evt.toInt := by simpa using hx.2
      cases hxe
      refine ⟨?_, x, hx.1, rfl⟩
      rw [ne_eq, ← hneg x hx.1]; omega
    · rintro ⟨hne, x, hx, hxe⟩
      refine ⟨x, List.mem_filter.2 ⟨hx, ?_⟩, by rw [hxe]⟩
      have := hneg x hx
      rw [hxe] at this ⊢
      simp only [hne, iff_false] at this
      simp only [decide_eq_true_eq]; omega

example : (build someOps).getRuns = .ok [-2, 4] ∧ (build someOps).getEvents = .ok [(-2, 3), (4, 0), (4, 7)] := by decide +kernel

end Props
