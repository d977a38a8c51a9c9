import Verif.Util.ProcessFlagLemmas
/-
Properties of the flags of a physics process: C72.
-/
namespace Props
open Sio Spec Util

/-- **C72.** Flags are sets: a flag made of a list of bits has exactly these, and contains another one if and only if it has all its bits. -/
theorem C72_flags (bits bits' : List PF) :
    (∀ f, pfHas (pfOf bits) f = true ↔ f ∈ bits) ∧
    (∀ f g, pfHas (pfAdd (pfOf bits) f) g = true ↔ g = f ∨ g ∈ bits) ∧
    (pfContains (pfOf bits) (pfOf bits') = true ↔ ∀ f ∈ bits', f ∈ bits) ∧
    (pfOf bits = pfOf bits' ↔ ∀ f, f ∈ bits ↔ f ∈ bits') := by
  have key : ∀ (l : List PF) (flag : BitVec 32) (i : Nat), (l.foldl pfAdd flag).getLsbD i = true ↔ flag.getLsbD i = true ∨ ∃ f ∈ l, f.bit = i := by
    intro l
    induction l with
    | nil => simp
    | cons g l ih =>
      intro flag i
      rw [List.foldl_cons, ih]
      unfold pfAdd
      rw [or_bit _ _ _ g.bit_lt]
      simp only [Bool.or_eq_true, decide_eq_true_eq, List.mem_cons]
      constructor
      · rintro ((h | h) | ⟨f, hf, h⟩)
        · right; exact ⟨g, Or.inl rfl, h.symm⟩
        · left; exact h
        · right; exact ⟨f, Or.inr hf, h⟩
      · rintro (h | ⟨f, rfl | hf, h⟩)
        · left; right; exact h
        · left; left; exact h.symm
        · right; exact ⟨f, hf, h⟩
  have key0 : ∀ (l : List PF) (i : Nat), (pfOf l).getLsbD i = true ↔ ∃ f ∈ l, f.bit = i := by
    intro l i
    unfold pfOf
    rw [key]; simp
  have has : ∀ (l : List PF) f, pfHas (pfOf l) f = true ↔ f ∈ l := by
    intro l f
    rw [pfHas_eq, key0]
    constructor
    · rintro ⟨g, hg, h⟩; rw [← PF.bit_inj h]; exact hg
    · intro h; exact ⟨f, h, rfl⟩
  have ext : ∀ (a b : BitVec 32), (∀ i, a.getLsbD i = true ↔ b.getLsbD i = true) → a = b := by
    intro a b h
    apply BitVec.eq_of_getLsbD_eq
    intro i _
    rw [Bool.eq_iff_iff]; exact h i
  refine ⟨has bits, ?_, ?_, ?_⟩
  · intro f g
    rw [has_add]; simp [has]
  · unfold pfContains
    rw [beq_iff_eq]
    constructor
    · intro h f hf
      have h1 : (pfOf bits &&& pfOf bits').getLsbD f.bit = true := by rw [h]; exact (key0 _ _).2 ⟨f, hf, rfl⟩
      rw [BitVec.getLsbD_and, Bool.and_eq_true] at h1
      obtain ⟨g, hg, e⟩ := (key0 _ _).1 h1.1
      rw [← PF.bit_inj e]; exact hg
    · intro h
      apply ext
      intro i
      rw [BitVec.getLsbD_and, Bool.and_eq_true, key0, key0]
      constructor
      · exact fun h => h.2
      · rintro ⟨f, hf, e⟩; exact ⟨⟨f, h f hf, e⟩, f, hf, e⟩
  · constructor
    · intro h f
      rw [← has, ← has, h]
    · intro h
      apply ext
      intro i
      rw [key0, key0]
      simp [h]

/-- The hard final state, if any. -/
def hardOf (h : Mcs) (col : List Nat) (max : Int) : McCase × List Nat := (hardState h (col.take max.toNat)).getD (.incoming, [])

theorem has_decay {flag0 : BitVec 32} {s : PfState} (hg : s.higgs = true) (h0 : -2147483648 < s.hDpdg0) (h1 : -2147483648 < s.hDpdg1) :
    ∃ flag, pfDecay flag0 s = .ok flag ∧ ∀ f, pfHas flag f = true ↔ pfHas flag0 f = true ∨
      (s.hDpdg0.natAbs = s.hDpdg1.natAbs ∧ pfMapH.lookup (s.hDpdg0.natAbs : Int) = some f) ∨
      (f = .higgsgaZ ∧ ((s.hDpdg0 = 22 ∧ s.hDpdg1 = 23) ∨ (s.hDpdg0 = 23 ∧ s.hDpdg1 = 22))) ∨
      (f = .exotic ∧ (s.hDpdg0.natAbs > 1000000 ∨ s.hDpdg1.natAbs > 1000000)) := by
  unfold pfDecay
  rw [if_pos hg]
  simp only [absInt_ok h0, absInt_ok h1, bind, Except.bind]
  refine ⟨_, rfl, ?_⟩
  intro f
  rw [has_if, has_if, has_if]
  have hp : pfHas (if (s.hDpdg0.natAbs : Int) = (s.hDpdg1.natAbs : Int) then (pfAddHiggs flag0 s.hDpdg0.natAbs).1 else flag0) f = true ↔
      pfHas flag0 f = true ∨ (s.hDpdg0.natAbs = s.hDpdg1.natAbs ∧ pfMapH.lookup (s.hDpdg0.natAbs : Int) = some f) := by
    by_cases e : s.hDpdg0.natAbs = s.hDpdg1.natAbs
    · rw [if_pos (by omega), has_addHiggs]; simp [e]
    · rw [if_neg (by omega)]; simp [e]
  rw [hp]
  have : ((s.hDpdg0.natAbs : Int) > 1000000 ∨ (s.hDpdg1.natAbs : Int) > 1000000) ↔ (s.hDpdg0.natAbs > 1000000 ∨ s.hDpdg1.natAbs > 1000000) := by omega
  rw [this]
  constructor
  · rintro ((((h | h) | h) | h) | h)
    · exact Or.inl h
    · exact Or.inr (Or.inl h)
    · exact Or.inr (Or.inr (Or.inl ⟨h.2, Or.inl h.1⟩))
    · exact Or.inr (Or.inr (Or.inl ⟨h.2, Or.inr h.1⟩))
    · exact Or.inr (Or.inr (Or.inr ⟨h.2, h.1⟩))
  · rintro (h | h | ⟨hf, h | h⟩ | h)
    · exact Or.inl (Or.inl (Or.inl (Or.inl h)))
    · exact Or.inl (Or.inl (Or.inl (Or.inr h)))
    · exact Or.inl (Or.inl (Or.inr ⟨h, hf⟩))
    · exact Or.inl (Or.inr ⟨h, hf⟩)
    · exact Or.inr ⟨h.2, h.1⟩

/-- **C72.** For events as generators write them, with at most one Higgs boson, decoding ends and gives flags with the documented meaning. Three flags are
different: those for decays to gluons and for other decays are never set, and the one for exotic particles is set for decays of the Higgs boson only. -/
theorem C72_process_partial (h : Mcs) (col : List Nat) (max : Int) (hmin : ∀ p, -2147483648 < (h p).pdg)
    (ht : Tidy h (col.take max.toNat)) (hsize : (hardOf h col max).2.length ≤ 1000000)
    (hdec : ∀ x ∈ (hardOf h col max).2, (h x).pdg.natAbs = 25 → ∃ a b, DecaysTo h x a b)
    (hone : ∀ x ∈ (hardOf h col max).2, ∀ y ∈ (hardOf h col max).2, (h x).pdg.natAbs = 25 → (h y).pdg.natAbs = 25 → x = y) :
    ∃ n, ∀ fuel ≥ n, ∃ flag, decodeProcess h fuel col max = .ok flag ∧
      (∀ f, f ∉ [PF.higgsgg, .higgsother, .exotic] → (pfHas flag f = true ↔ FlagMeans h (hardOf h col max).1 (hardOf h col max).2 f)) ∧
      pfHas flag .higgsgg = false ∧ pfHas flag .higgsother = false ∧
      (pfHas flag .exotic = true ↔ ∃ x ∈ (hardOf h col max).2, (h x).pdg.natAbs = 25 ∧ ∃ a b, DecaysTo h x a b ∧ (a.natAbs > 1000000 ∨ b.natAbs > 1000000)) := by
  obtain ⟨icase, hard, he, hz, hs⟩ := pfHard_eq h col max ht
  have hhard : hard = (hardOf h col max).2 ∧ (hard ≠ [] → (icase = 2 ↔ (hardOf h col max).1 = .noBeams)) := by
    unfold hardOf
    cases hh : hardState h (col.take max.toNat) with
    | none => rw [hh] at hs; exact ⟨hs.1, fun hne => absurd hs.1 hne⟩
    | some v =>
      obtain ⟨kind, l⟩ := v
      rw [hh] at hs
      exact ⟨hs.1, fun _ => ⟨hs.2.2, hs.2.1⟩⟩
  obtain ⟨hhard, hkind⟩ := hhard
  rw [← hhard] at hsize hdec hone ⊢
  generalize (hardOf h col max).1 = kind at hkind
  by_cases hne : hard = []
  · subst hne
    refine ⟨0, fun fuel _ => ⟨pfAdd 0 .unknown, ?_, ?_, by decide, by decide, ?_⟩⟩
    · unfold decodeProcess
      simp only [he, bind, Except.bind]
      rw [if_pos (by simp)]; rfl
    · intro f _
      rw [has_add, has_zero]
      unfold FlagMeans
      by_cases hu : f = .unknown
      · simp [hu]
      · simp [hu]
    · constructor
      · intro h; exact absurd h (by decide)
      · rintro ⟨x, hx, _⟩; simp at hx
  · have hkind := hkind hne
    obtain ⟨n, hn⟩ := pfFold hmin hard hdec
    refine ⟨n, fun fuel hf => ?_⟩
    obtain ⟨s, es, ks, vs, gs, ds⟩ := hn fuel hf {} (by simp [Keys])
    have hc0 : icase ≠ 0 := fun e => hne (hz e)
    -- the numbers of particles
    obtain ⟨s2, hs2⟩ : ∃ s2, s2 = (if icase = 2 then { s with counts := pfCountAdd 22 (-2) s.counts } else s) := ⟨_, rfl⟩
    have e2 : decodeProcess h fuel col max = pfDecay (pfFinal 0 s2.counts) s2 := by
      unfold decodeProcess
      simp only [he, bind, Except.bind]
      rw [if_neg (by simp [hc0, hne])]
      simp only [es]
      rw [hs2]
    have k2 : Keys s2.counts := by rw [hs2]; split; exacts [keys_add ks _ _, ks]
    have v2 : ∀ k : Int, cval s2.counts k = (hard.countP fun x => ((h x).pdg.natAbs : Int) = k : Nat) + if icase = 2 ∧ k = 22 then -2 else 0 := by
      intro k
      have := vs k
      have hz : cval ({} : PfState).counts k = 0 := rfl
      rw [hz] at this
      rw [hs2]
      by_cases hi : icase = 2
      · rw [if_pos hi, cval_add ks, this]
        by_cases hk : k = 22 <;> simp [hi, hk]
      · rw [if_neg hi, this]; simp [hi]
    have g2 : s2.higgs = s.higgs ∧ s2.hDpdg0 = s.hDpdg0 ∧ s2.hDpdg1 = s.hDpdg1 := by rw [hs2]; split <;> simp
    have hle : ∀ k, cval s2.counts k ≤ 1000000 := by
      intro k
      rw [v2]
      have := List.countP_le_length (p := fun x => decide (((h x).pdg.natAbs : Int) = k)) (l := hard)
      split <;> omega
    have hfin : ∀ f, pfHas (pfFinal 0 s2.counts) f = true ↔ ∃ k : Nat, cval s2.counts k > 0 ∧ k ∈ finalCodes f := by
      intro f
      rw [has_final k2]
      constructor
      · rintro ⟨k, h | h⟩
        · obtain ⟨h1, h2⟩ := h
          rw [lookupFS_iff] at h2
          exact ⟨k.natAbs, by rw [Int.natAbs_of_nonneg h2.1]; exact h1, h2.2⟩
        · exact absurd h.1 (by have := hle k; omega)
      · rintro ⟨k, h1, h2⟩
        exact ⟨k, Or.inl ⟨h1, (lookupFS_iff _ _).2 ⟨by omega, by simpa using h2⟩⟩⟩
    have hpos : ∀ k : Nat, (0 < (hard.countP fun x => decide (((h x).pdg.natAbs : Int) = k))) ↔ ∃ x ∈ hard, (h x).pdg.natAbs = k := by
      intro k
      rw [List.countP_pos_iff]
      simp only [decide_eq_true_eq]
      constructor
      · rintro ⟨x, hx, e⟩; exact ⟨x, hx, by omega⟩
      · rintro ⟨x, hx, e⟩; exact ⟨x, hx, by omega⟩
    -- the decay
    obtain ⟨flag, ef, hflag⟩ : ∃ flag, pfDecay (pfFinal 0 s2.counts) s2 = .ok flag ∧ ∀ f, pfHas flag f = true ↔ (∃ k : Nat, cval s2.counts k > 0 ∧ k ∈ finalCodes f) ∨
        ∃ x ∈ hard, (h x).pdg.natAbs = 25 ∧ ∃ a b, DecaysTo h x a b ∧ ((a.natAbs = b.natAbs ∧ pfMapH.lookup (a.natAbs : Int) = some f) ∨
          (f = .higgsgaZ ∧ ((a = 22 ∧ b = 23) ∨ (a = 23 ∧ b = 22))) ∨ (f = .exotic ∧ (a.natAbs > 1000000 ∨ b.natAbs > 1000000))) := by
      by_cases hg : s.higgs = true
      · obtain ⟨x, hx, h25, hd⟩ : ∃ x ∈ hard, (h x).pdg.natAbs = 25 ∧ DecaysTo h x s2.hDpdg0 s2.hDpdg1 := by
          rw [g2.2.1, g2.2.2]
          rcases ds with ⟨hg', _⟩ | hd
          · rw [hg] at hg'; cases hg'
          · exact hd
        have hmin0 : -2147483648 < s2.hDpdg0 := by obtain ⟨_, d, _, _, _, _, e, _⟩ := hd; rw [← e]; exact hmin d
        have hmin1 : -2147483648 < s2.hDpdg1 := by obtain ⟨_, _, d, _, _, _, _, e⟩ := hd; rw [← e]; exact hmin d
        obtain ⟨flag, ef, hflag⟩ := has_decay (flag0 := pfFinal 0 s2.counts) (by rw [g2.1]; exact hg) hmin0 hmin1
        refine ⟨flag, ef, fun f => ?_⟩
        rw [hflag, hfin]
        apply or_congr Iff.rfl
        constructor
        · intro h; exact ⟨x, hx, h25, _, _, hd, h⟩
        · rintro ⟨y, hy, hy25, a, b, hab, h⟩
          obtain rfl := hone x hx y hy h25 hy25
          obtain ⟨rfl, rfl⟩ := decaysTo_unique hab hd
          exact h
      · refine ⟨pfFinal 0 s2.counts, ?_, fun f => ?_⟩
        · unfold pfDecay; rw [if_neg (by rw [g2.1]; exact hg)]
        · rw [hfin]
          constructor
          · exact Or.inl
          · rintro (h | ⟨x, hx, h25, _⟩)
            · exact h
            · exact absurd (gs.2 (Or.inr ⟨x, hx, h25⟩)) hg
    refine ⟨flag, by rw [e2, ef], ?_, ?_, ?_, ?_⟩
    · intro f hf
      rw [hflag]
      simp only [List.mem_cons, List.not_mem_nil, or_false, not_or] at hf
      by_cases hF : isFinal f = true
      · have hp : pairCodes f = [] ∧ f ≠ .higgsgaZ ∧ f ≠ .unknown := by revert hF; cases f <;> decide
        have hno : ¬ ∃ x ∈ hard, (h x).pdg.natAbs = 25 ∧ ∃ a b, DecaysTo h x a b ∧ ((a.natAbs = b.natAbs ∧ pfMapH.lookup (a.natAbs : Int) = some f) ∨
          (f = .higgsgaZ ∧ ((a = 22 ∧ b = 23) ∨ (a = 23 ∧ b = 22))) ∨ (f = .exotic ∧ (a.natAbs > 1000000 ∨ b.natAbs > 1000000))) := by
          rintro ⟨x, _, _, a, b, _, h | h | h⟩
          · have := (lookupH_iff _ f hf.1).1 h.2
            rw [hp.1] at this; simp at this
          · exact hp.2.1 h.1
          · exact hf.2.2 h.1
        unfold FlagMeans
        rw [if_neg hp.2.2, if_neg hf.2.2]
        simp only [hno, or_false]
        by_cases hph : f = .photons ∧ kind = .noBeams
        · rw [if_pos hph, hph.1]
          have hi := hkind.2 hph.2
          simp only [finalCodes, List.mem_singleton]
          have e22 : (hard.countP fun x => decide (((h x).pdg.natAbs : Int) = ((22 : Nat) : Int))) = hard.countP fun x => decide ((h x).pdg.natAbs = 22) := by
            congr 1; funext x; congr 1; apply propext; omega
          constructor
          · rintro ⟨k, hk, rfl⟩
            rw [v2, e22] at hk
            simp [hi] at hk
            omega
          · intro hk
            refine ⟨22, ?_, rfl⟩
            rw [v2, e22]
            simp [hi]
            omega
        · rw [if_neg hph, if_pos hF]
          constructor
          · rintro ⟨k, hk, hc⟩
            rw [v2] at hk
            have : 0 < (hard.countP fun x => decide (((h x).pdg.natAbs : Int) = k)) := by split at hk <;> omega
            obtain ⟨x, hx, e⟩ := (hpos k).1 this
            exact ⟨x, hx, by rw [e]; exact hc⟩
          · rintro ⟨x, hx, hc⟩
            refine ⟨(h x).pdg.natAbs, ?_, hc⟩
            rw [v2]
            have := (hpos _).2 ⟨x, hx, rfl⟩
            by_cases h22 : icase = 2 ∧ (((h x).pdg.natAbs : Nat) : Int) = 22
            · exfalso
              apply hph
              refine ⟨?_, hkind.1 h22.1⟩
              have e : (h x).pdg.natAbs = 22 := by omega
              rw [e] at hc
              revert hc; cases f <;> decide
            · rw [if_neg h22]; omega
      · have hfc : finalCodes f = [] := by
          unfold isFinal at hF
          simpa using hF
        have hno : ¬ ∃ k : Nat, cval s2.counts k > 0 ∧ k ∈ finalCodes f := by rw [hfc]; simp
        simp only [hno, false_or]
        unfold FlagMeans
        have hph : ¬ (f = .photons ∧ kind = .noBeams) := by
          rintro ⟨rfl, _⟩; exact hF rfl
        by_cases hu : f = .unknown
        · rw [if_pos hu]
          subst hu
          constructor
          · rintro ⟨x, _, _, a, b, _, h | h | h⟩
            · have := (lookupH_iff _ _ (by decide)).1 h.2
              simp [pairCodes] at this
            · cases h.1
            · cases h.1
          · intro h; exact absurd h hne
        · rw [if_neg hu, if_neg hf.2.2, if_neg hph, if_neg hF]
          have hD : isDecay f = true := by
            revert hF hu hf; cases f <;> decide
          rw [if_pos hD]
          have : ∀ a b : Int, ((a.natAbs = b.natAbs ∧ pfMapH.lookup (a.natAbs : Int) = some f) ∨
              (f = .higgsgaZ ∧ ((a = 22 ∧ b = 23) ∨ (a = 23 ∧ b = 22))) ∨ (f = .exotic ∧ (a.natAbs > 1000000 ∨ b.natAbs > 1000000))) ↔ DecayFlag a b f := by
            intro a b
            unfold DecayFlag
            rw [lookupH_iff _ _ hf.1]
            simp only [hf.2.2, false_and, or_false]
            apply or_congr _ Iff.rfl
            apply and_congr Iff.rfl
            constructor
            · intro h; simpa using h.2
            · intro h; exact ⟨by omega, by simpa using h⟩
          simp only [this]
    · rw [Bool.eq_false_iff, Ne, hflag]
      rintro (⟨k, _, hk⟩ | ⟨x, _, _, a, b, _, h | h | h⟩)
      · simp [finalCodes] at hk
      · exact lookupH_none _ h.2
      · cases h.1
      · cases h.1
    · rw [Bool.eq_false_iff, Ne, hflag]
      rintro (⟨k, _, hk⟩ | ⟨x, _, _, a, b, _, h | h | h⟩)
      · simp [finalCodes] at hk
      · have := (lookupH_iff _ _ (by decide)).1 h.2
        simp [pairCodes] at this
      · cases h.1
      · cases h.1
    · rw [hflag]
      constructor
      · rintro (⟨k, _, hk⟩ | ⟨x, hx, h25, a, b, hd, h | h | h⟩)
        · simp [finalCodes] at hk
        · have := (lookupH_iff _ _ (by decide)).1 h.2
          simp [pairCodes] at this
        · cases h.1
        · exact ⟨x, hx, h25, a, b, hd, h.2⟩
      · rintro ⟨x, hx, h25, a, b, hd, h⟩
        exact Or.inr ⟨x, hx, h25, a, b, hd, Or.inr (Or.inr ⟨rfl, h⟩)⟩

/-! Cases -/

/-- Particles numbered as in a list. -/
def mcsOf (l : List McNode) : Mcs := fun p => l.getD p { pdg := 0 }

theorem mcsOf_min (l : List McNode) (h : ∀ x ∈ l, -2147483648 < x.pdg) : ∀ p, -2147483648 < (mcsOf l p).pdg := by
  intro p
  unfold mcsOf
  rw [List.getD_eq_getElem?_getD]
  cases hp : l[p]? with
  | none => simp
  | some x => simpa using h x (List.mem_of_getElem? hp)

/-- `e+ e-` to `Z H`, with `Z` to muons, and `H` to `H` to `b b`. -/
def zhNodes : List McNode :=
  [{ pdg := 11, status := 3, daughters := [2, 3, 4] }, { pdg := -11, status := 3, daughters := [2, 3, 4] },
   { pdg := 13, parents := [0, 1] }, { pdg := -13, parents := [0, 1] }, { pdg := 25, parents := [0, 1], daughters := [5] },
   { pdg := 25, parents := [4], daughters := [6, 7] }, { pdg := 5, parents := [5] }, { pdg := -5, parents := [5] }]

theorem zh_tidy : Tidy (mcsOf zhNodes) ([0, 1, 2, 3, 4, 5, 6, 7].take (10 : Int).toNat) :=
  ⟨fun h => absurd rfl (h 0 (by decide)), fun h => absurd rfl (h 0 (by decide))⟩

theorem zh_decays : DecaysTo (mcsOf zhNodes) 4 5 (-5) :=
  ⟨5, 6, 7, [], .later rfl rfl (.here (by intro d h; cases h)), rfl, rfl, rfl⟩

/-- The event meets the hypotheses of `C72_process_partial`. -/
example : ∃ n, ∀ fuel ≥ n, ∃ flag, decodeProcess (mcsOf zhNodes) fuel [0, 1, 2, 3, 4, 5, 6, 7] = .ok flag ∧
    pfHas flag .muons = true ∧ pfHas flag .higgsbb = true ∧ pfHas flag .bquarks = false := by
  have hh : (hardOf (mcsOf zhNodes) [0, 1, 2, 3, 4, 5, 6, 7] 10).2 = [2, 3, 4] := by decide
  obtain ⟨n, hn⟩ := C72_process_partial (mcsOf zhNodes) [0, 1, 2, 3, 4, 5, 6, 7] 10 (mcsOf_min _ (by decide)) zh_tidy (by rw [hh]; decide)
    (by rw [hh]
        intro x hx h25
        simp only [List.mem_cons, List.not_mem_nil, or_false] at hx
        rcases hx with rfl | rfl | rfl
        · exact absurd h25 (by decide)
        · exact absurd h25 (by decide)
        · exact ⟨_, _, zh_decays⟩)
    (by rw [hh]; decide)
  refine ⟨n, fun fuel hf => ?_⟩
  obtain ⟨flag, e, hm, _⟩ := hn fuel hf
  refine ⟨flag, e, ?_, ?_, ?_⟩
  · rw [hm .muons (by decide), hh]
    exact ⟨2, by simp, by decide⟩
  · rw [hm .higgsbb (by decide), hh]
    exact ⟨4, by simp, rfl, 5, -5, zh_decays, Or.inl ⟨rfl, by decide⟩⟩
  · rw [Bool.eq_false_iff, Ne, hm .bquarks (by decide), hh]
    rintro ⟨x, hx, h⟩
    revert h
    simp only [List.mem_cons, List.not_mem_nil, or_false] at hx
    rcases hx with rfl | rfl | rfl <;> decide

/-- Files without beams: two photons of the initial state and two muons. -/
def muNodes : List McNode := [{ pdg := 22 }, { pdg := 22 }, { pdg := 13 }, { pdg := -13, daughters := [4] }, { pdg := -11, parents := [3] }]

example : Tidy (mcsOf muNodes) ([0, 1, 2, 3, 4].take (10 : Int).toNat) ∧ hardOf (mcsOf muNodes) [0, 1, 2, 3, 4] 10 = (.noBeams, [0, 1, 2, 3]) ∧
    decodeProcess (mcsOf muNodes) 1 [0, 1, 2, 3, 4] = .ok (pfOf [.muons]) := by
  refine ⟨⟨fun _ => ⟨[4], by decide⟩, fun _ h => absurd h (by decide)⟩, by decide, by decide⟩

/-- Files with beams: both beams make the same particles. -/
def beamNodes : List McNode :=
  [{ pdg := 11, daughters := [2, 3, 4] }, { pdg := -11, daughters := [2, 3, 4] }, { pdg := 11, parents := [0, 1], daughters := [5, 6] },
   { pdg := 22, parents := [0, 1] }, { pdg := 22, parents := [0, 1] }, { pdg := 3, parents := [2] }, { pdg := -3, parents := [2] }]

example : Tidy (mcsOf beamNodes) ([0, 1, 2, 3, 4, 5, 6].take (10 : Int).toNat) ∧ hardOf (mcsOf beamNodes) [0, 1, 2, 3, 4, 5, 6] 10 = (.beams, [5, 6]) ∧
    decodeProcess (mcsOf beamNodes) 1 [0, 1, 2, 3, 4, 5, 6] = .ok (pfOf [.squarks]) := by
  refine ⟨⟨fun _ => ⟨[2, 3, 4, 5, 6], by decide⟩, ?_⟩, by decide, by decide⟩
  have key : ∀ d, (mcsOf beamNodes d).daughters.length > 1 → (∃ p ∈ ([0, 1, 2, 3, 4, 5, 6] : List Nat), Parentless (mcsOf beamNodes) p ∧ d ∈ (mcsOf beamNodes p).daughters) → d = 2 := by
    rintro d hl ⟨p, hp, hr, hd⟩
    have : ∀ p ∈ ([0, 1, 2, 3, 4, 5, 6] : List Nat), Parentless (mcsOf beamNodes) p → ∀ d ∈ (mcsOf beamNodes p).daughters, (mcsOf beamNodes d).daughters.length > 1 → d = 2 := by
      decide
    exact this p hp hr d hd hl
  intro _ _ d hl hd
  refine ⟨?_, fun d' hl' hd' => ?_⟩
  · intro p hp
    obtain rfl : p = 0 := by simpa using hp.symm
    rw [key d hl hd]; decide
  · rw [key d hl hd, key d' hl' hd']

/-- **C72 is false** for particles of supersymmetry: the flag is set only if their number is more than a million. -/
theorem C72_fails_exotic : ∃ (h : Mcs) (col : List Nat) (flag : BitVec 32), Tidy h (col.take (10 : Int).toNat) ∧
    (∀ fuel, decodeProcess h fuel col = .ok flag) ∧ FlagMeans h (hardOf h col 10).1 (hardOf h col 10).2 .exotic ∧ pfHas flag .exotic = false := by
  refine ⟨mcsOf [{ pdg := 11, status := 3, daughters := [1, 2] }, { pdg := 1000011, parents := [0] }, { pdg := -1000011, parents := [0] }], [0, 1, 2], 0, ?_, ?_, ?_, by decide⟩
  · exact ⟨fun h => absurd rfl (h 0 (by decide)), fun h => absurd rfl (h 0 (by decide))⟩
  · intro fuel; rfl
  · exact ⟨1, by decide, Or.inl (by decide)⟩

/-- **C72 is false** for decays of the Higgs boson to gluons: there is no flag for the decay, not even that for other decays. -/
theorem C72_fails_gluons : ∃ (h : Mcs) (col : List Nat) (flag : BitVec 32), Tidy h (col.take (10 : Int).toNat) ∧
    (∀ fuel > 0, decodeProcess h fuel col = .ok flag) ∧ FlagMeans h (hardOf h col 10).1 (hardOf h col 10).2 .higgsgg ∧
    pfHas flag .higgsgg = false ∧ pfHas flag .higgsother = false := by
  refine ⟨mcsOf [{ pdg := 11, status := 3, daughters := [1] }, { pdg := 25, parents := [0], daughters := [2, 3] }, { pdg := 21, parents := [1] }, { pdg := 21, parents := [1] }], [0, 1], 0, ?_, ?_, ?_, by decide, by decide⟩
  · exact ⟨fun h => absurd rfl (h 0 (by decide)), fun h => absurd rfl (h 0 (by decide))⟩
  · intro fuel hf
    obtain ⟨k, rfl⟩ : ∃ k, fuel = k + 1 := ⟨fuel - 1, by omega⟩
    rfl
  · exact ⟨1, by decide, rfl, 21, 21, ⟨1, 2, 3, [], .here (by intro d h; cases h), rfl, rfl, rfl⟩, Or.inl ⟨rfl, by decide⟩⟩

/-- **C72 is false** for two Higgs bosons: there is a flag for the decay of the last one only. -/
theorem C72_fails_two_higgs : ∃ (h : Mcs) (col : List Nat) (flag : BitVec 32), Tidy h (col.take (10 : Int).toNat) ∧
    (∀ fuel > 0, decodeProcess h fuel col = .ok flag) ∧ FlagMeans h (hardOf h col 10).1 (hardOf h col 10).2 .higgsbb ∧
    FlagMeans h (hardOf h col 10).1 (hardOf h col 10).2 .higgstautau ∧ pfHas flag .higgsbb = false ∧ pfHas flag .higgstautau = true := by
  refine ⟨mcsOf [{ pdg := 11, status := 3, daughters := [1, 2] }, { pdg := 25, parents := [0], daughters := [3, 4] }, { pdg := 25, parents := [0], daughters := [5, 6] },
    { pdg := 5, parents := [1] }, { pdg := -5, parents := [1] }, { pdg := 15, parents := [2] }, { pdg := -15, parents := [2] }], [0, 1, 2], pfOf [.higgstautau], ?_, ?_, ?_, ?_, by decide, by decide⟩
  · exact ⟨fun h => absurd rfl (h 0 (by decide)), fun h => absurd rfl (h 0 (by decide))⟩
  · intro fuel hf
    obtain ⟨k, rfl⟩ : ∃ k, fuel = k + 1 := ⟨fuel - 1, by omega⟩
    rfl
  · exact ⟨1, by decide, rfl, 5, -5, ⟨1, 3, 4, [], .here (by intro d h; cases h), rfl, rfl, rfl⟩, Or.inl ⟨rfl, by decide⟩⟩
  · exact ⟨2, by decide, rfl, 15, -15, ⟨2, 5, 6, [], .here (by intro d h; cases h), rfl, rfl, rfl⟩, Or.inl ⟨rfl, by decide⟩⟩

/-- **C72 is false** for Higgs bosons without daughters: the first daughter is used all the same, which is undefined behaviour. -/
theorem C72_fails_stable : ∃ (h : Mcs) (col : List Nat), Tidy h (col.take (10 : Int).toNat) ∧ ∀ fuel > 0, decodeProcess h fuel col = .error .ub := by
  refine ⟨mcsOf [{ pdg := 11, status := 3, daughters := [1] }, { pdg := 25, parents := [0] }], [0, 1], ?_, ?_⟩
  · exact ⟨fun h => absurd rfl (h 0 (by decide)), fun h => absurd rfl (h 0 (by decide))⟩
  · intro fuel hf
    obtain ⟨k, rfl⟩ : ∃ k, fuel = k + 1 := ⟨fuel - 1, by omega⟩
    rfl

/-- **C72 is false** for Higgs bosons that are their own descendants: the function does not return. -/
theorem C72_fails_cycle : ∃ (h : Mcs) (col : List Nat), Tidy h (col.take (10 : Int).toNat) ∧ ∀ fuel, decodeProcess h fuel col = .error .diverge := by
  refine ⟨mcsOf [{ pdg := 11, status := 3, daughters := [1] }, { pdg := 25, parents := [0], daughters := [1] }], [0, 1], ?_, ?_⟩
  · exact ⟨fun h => absurd rfl (h 0 (by decide)), fun h => absurd rfl (h 0 (by decide))⟩
  · have key : ∀ fuel, pfFollow (mcsOf [{ pdg := 11, status := 3, daughters := [1] }, { pdg := 25, parents := [0], daughters := [1] }]) fuel 1 = .error .diverge := by
      intro fuel
      induction fuel with
      | zero => rfl
      | succ n ih => exact ih
    intro fuel
    show (do
      let s ← List.foldlM (pfStep _ fuel) ({} : PfState) [1]
      pfDecay (pfFinal 0 s.counts) s : Except Err (BitVec 32)) = _
    rw [List.foldlM_cons]
    show ((do
      let q ← pfFollow _ fuel 1
      _ : Except Err PfState) >>= _) >>= _ = _
    rw [key]
    rfl

/-- **C72 is false** if particles without parents do not come first: others are taken instead of them. -/
theorem C72_fails_order : ∃ (h : Mcs) (col : List Nat) (flag : BitVec 32), (∀ fuel, decodeProcess h fuel col = .ok flag) ∧
    FlagMeans h (hardOf h col 10).1 (hardOf h col 10).2 .taus ∧ pfHas flag .taus = false := by
  refine ⟨mcsOf [{ pdg := 13 }, { pdg := -13, daughters := [2] }, { pdg := -11, parents := [1] }, { pdg := 15 }], [0, 1, 2, 3], pfOf [.muons, .electrons], ?_, ?_, by decide⟩
  · intro fuel; rfl
  · exact ⟨3, by decide, by decide⟩

/-- **C72 is false** if the particles come from the second beam: the daughters of the first one are looked at only. -/
theorem C72_fails_second_beam : ∃ (h : Mcs) (col : List Nat) (flag : BitVec 32), (∀ fuel, decodeProcess h fuel col = .ok flag) ∧
    (∃ rest, col = col.filter (Parentless h ·) ++ rest) ∧
    FlagMeans h (hardOf h col 10).1 (hardOf h col 10).2 .muons ∧ flag = pfOf [.unknown] := by
  refine ⟨mcsOf [{ pdg := 11 }, { pdg := -11, daughters := [2] }, { pdg := 22, parents := [1], daughters := [3, 4] }, { pdg := 13, parents := [2] }, { pdg := -13, parents := [2] }], [0, 1, 2, 3, 4], pfOf [.unknown], ?_, ⟨[2, 3, 4], by decide⟩, ?_, rfl⟩
  · intro fuel; rfl
  · exact ⟨3, by decide, by decide⟩

end Props
