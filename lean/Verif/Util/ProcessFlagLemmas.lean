import Verif.Spec.ProcessFlag
import Verif.Props.Flags
import Mathlib.Tactic.SplitIfs
import Mathlib.Tactic.Tauto
import Mathlib.Tactic.ByContra
/-
Lemmas on the flags of a physics process.
-/
namespace Util
open Sio Spec Props

theorem PF.bit_lt (f : PF) : f.bit < 32 := by cases f <;> decide

theorem PF.bit_inj {f g : PF} (h : f.bit = g.bit) : f = g := by
  revert h; cases f <;> cases g <;> decide

theorem pfHas_eq (flag : BitVec 32) (f : PF) : pfHas flag f = flag.getLsbD f.bit := and_one_shl flag f.bit f.bit_lt

theorem has_add (flag : BitVec 32) (f g : PF) : pfHas (pfAdd flag f) g = (decide (g = f) || pfHas flag g) := by
  rw [pfHas_eq, pfHas_eq]
  unfold pfAdd
  rw [or_bit _ _ _ f.bit_lt]
  congr 1
  have : (g.bit = f.bit) = (g = f) := propext ⟨PF.bit_inj, fun h => by rw [h]⟩
  simp only [this]

theorem has_zero (f : PF) : pfHas 0 f = false := by cases f <;> decide

theorem pfScan_eq (h : Mcs) (l : List Nat) (n : Nat) : pfScan h l n =
    match l.find? (fun p => (h p).status = 3) with
    | some p => .inl (h p).daughters
    | none => .inr (n + (l.filter (Parentless h ·)).length) := by
  induction l generalizing n with
  | nil => rfl
  | cons p ps ih =>
    unfold pfScan
    by_cases hs : (h p).status = 3
    · simp [hs]
    · rw [if_neg hs, ih, List.find?_cons_of_neg (by simpa using hs)]
      cases ps.find? (fun p => (h p).status = 3) with
      | some q => rfl
      | none =>
        simp only []
        congr 1
        by_cases hp : (h p).parents = []
        · have hp' : Parentless h p := hp
          rw [List.filter_cons_of_pos (by simpa using hp')]
          simp [hp]; omega
        · have hp' : ¬ Parentless h p := hp
          rw [List.filter_cons_of_neg (by simpa using hp')]
          simp [hp]

theorem pfBeam_eq (h : Mcs) (l : List Nat) : pfBeam h l = (l.find? (fun d => (h d).daughters.length > 1)).map fun d => (h d).daughters := by
  induction l with
  | nil => rfl
  | cons d ds ih =>
    unfold pfBeam
    by_cases hs : (h d).daughters.length > 1
    · simp [hs]
    · rw [if_neg hs, ih, List.find?_cons_of_neg (by simpa using hs)]

theorem eraseDups_same {l : List Nat} {d : Nat} (hd : ∀ x ∈ l, x = d) (hne : l ≠ []) : l.eraseDups = [d] := by
  cases l with
  | nil => exact absurd rfl hne
  | cons a as =>
    obtain rfl : a = d := hd a (by simp)
    rw [List.eraseDups_cons]
    have : as.filter (fun b => !b == a) = [] := by
      rw [List.filter_eq_nil_iff]
      intro x hx
      simp [hd x (by simp [hx])]
    rw [this]; rfl

/-- The code finds the hard final state. -/
theorem pfHard_eq (h : Mcs) (col : List Nat) (max : Int) (ht : Tidy h (col.take max.toNat)) :
    ∃ icase hard, pfHard h col max = .ok (icase, hard) ∧ (icase = 0 → hard = []) ∧
      match hardState h (col.take max.toNat) with
      | some (kind, hs) => hard = hs ∧ (kind = .noBeams → icase = 2) ∧ (icase = 2 → kind = .noBeams)
      | none => hard = [] ∧ icase = 0 := by
  unfold pfHard hardState
  rw [pfScan_eq]
  cases hf : (col.take max.toNat).find? (fun p => (h p).status = 3) with
  | some p => exact ⟨1, _, rfl, by simp, rfl, by simp, by simp⟩
  | none =>
    have h3 : ∀ p ∈ col.take max.toNat, (h p).status ≠ 3 := by
      intro p hp
      have := List.find?_eq_none.1 hf p hp
      simpa using this
    simp only [Nat.zero_add]
    generalize hfirst : col.take max.toNat = first at *
    by_cases h2 : (first.filter (Parentless h ·)).length > 2
    · rw [if_pos h2, if_pos h2]
      refine ⟨2, _, rfl, by simp, ?_, by simp, by simp⟩
      obtain ⟨rest, hr⟩ := ht.parentless h3
      have hle : (first.filter (Parentless h ·)).length ≤ max.toNat := by
        have := List.length_filter_le (Parentless h ·) first
        have h' : first.length ≤ max.toNat := by rw [← hfirst]; simp; omega
        omega
      have : col.take (first.filter (Parentless h ·)).length = first.take (first.filter (Parentless h ·)).length := by
        rw [← hfirst, List.take_take, hfirst, Nat.min_eq_left hle]
      rw [this]
      have hr' := congrArg (List.take (first.filter (Parentless h ·)).length) hr
      rw [hr', List.take_left']
      rfl
    · rw [if_neg h2, if_neg h2]
      by_cases e2 : (first.filter (Parentless h ·)).length = 2
      · rw [if_pos e2, if_pos e2]
        obtain ⟨rest, hr⟩ := ht.parentless h3
        cases first with
        | nil => simp at e2
        | cons p ps =>
          obtain ⟨col', rfl⟩ : ∃ c, col = p :: c := by
            cases col with
            | nil => simp at hfirst
            | cons a as =>
              cases hm : max.toNat with
              | zero => rw [hm] at hfirst; simp at hfirst
              | succ k => rw [hm] at hfirst; simp at hfirst; exact ⟨as, by rw [hfirst.1]⟩
          simp only [pfBeam_eq]
          have hp : Parentless h p := by
            by_contra hp
            rw [List.filter_cons_of_neg (by simpa using hp)] at hr e2
            have : p ∈ ps.filter (Parentless h ·) := by
              cases hfl : ps.filter (Parentless h ·) with
              | nil => rw [hfl] at e2; simp at e2
              | cons a as => rw [hfl] at hr; simp at hr; simp [hr.1]
            simp at this; exact hp this.2
          cases hd : (h p).daughters.find? (fun d => (h d).daughters.length > 1) with
          | some d =>
            have hdm := List.mem_of_find?_eq_some hd
            have hdl : (h d).daughters.length > 1 := by simpa using List.find?_some hd
            refine ⟨3, _, rfl, by simp, ?_, by simp, by simp⟩
            rw [eraseDups_same (d := d)]
            · simp
            · intro x hx
              simp only [List.mem_filter, List.mem_flatMap, decide_eq_true_eq] at hx
              obtain ⟨⟨q, ⟨hq1, hq2⟩, hqd⟩, hl⟩ := hx
              exact (ht.one h3 e2 d hdl ⟨p, by simp, hp, hdm⟩).2 x hl ⟨q, hq1, hq2, hqd⟩
            · apply List.ne_nil_of_mem (a := d)
              simp only [List.mem_filter, List.mem_flatMap, decide_eq_true_eq]
              exact ⟨⟨p, ⟨by simp, hp⟩, hdm⟩, hdl⟩
          | none =>
            refine ⟨0, [], rfl, by simp, ?_, by simp, by simp⟩
            have : ((List.filter (fun x => decide (Parentless h x)) (p :: ps)).flatMap fun p => (h p).daughters).filter (fun d => (h d).daughters.length > 1) = [] := by
              rw [List.filter_eq_nil_iff]
              intro x hx
              simp only [List.mem_filter, List.mem_flatMap, decide_eq_true_eq] at hx ⊢
              obtain ⟨q, ⟨hq1, hq2⟩, hqd⟩ := hx
              intro hl
              have := (ht.one h3 e2 x hl ⟨q, hq1, hq2, hqd⟩).1 p (by simp)
              have := List.find?_eq_none.1 hd x this
              simp at this
              omega
            rw [this]; rfl
      · rw [if_neg e2, if_neg e2]
        exact ⟨0, [], rfl, by simp, rfl, rfl⟩

theorem absInt_ok {x : Int} (hx : -2147483648 < x) : absInt x = .ok x.natAbs := by
  unfold absInt; rw [if_neg (by omega)]

theorem follow_ok {h : Mcs} (hmin : ∀ p, -2147483648 < (h p).pdg) {p q : Nat} (hd : Decaying h p q) : ∃ n, ∀ m ≥ n, pfFollow h m p = .ok q := by
  induction hd with
  | @here p hn =>
    refine ⟨1, ?_⟩
    intro m hm
    obtain ⟨m, rfl⟩ : ∃ k, m = k + 1 := ⟨m - 1, by omega⟩
    unfold pfFollow
    match hds : (h p).daughters with
    | [] => rfl
    | [d] =>
      simp only [absInt_ok (hmin d), bind, Except.bind]
      rw [if_neg (by have := hn d hds; omega)]; rfl
    | _ :: _ :: _ => rfl
  | @later p d q hds h25 _ ih =>
    obtain ⟨n, hn⟩ := ih
    refine ⟨n + 1, ?_⟩
    intro m hm
    obtain ⟨m, rfl⟩ : ∃ k, m = k + 1 := ⟨m - 1, by omega⟩
    unfold pfFollow
    simp only [hds, absInt_ok (hmin d), bind, Except.bind]
    rw [if_pos (by omega)]
    exact hn m (by omega)

theorem decaying_unique {h : Mcs} {p q q' : Nat} (h1 : Decaying h p q) (h2 : Decaying h p q') : q = q' := by
  induction h1 with
  | here hn =>
    cases h2 with
    | here => rfl
    | later hd h25 => exact absurd h25 (hn _ hd)
  | later hd h25 _ ih =>
    cases h2 with
    | here hn => exact absurd h25 (hn _ hd)
    | later hd' _ ht' => rw [hd] at hd'; cases hd'; exact ih ht'

theorem decaysTo_unique {h : Mcs} {p : Nat} {a b a' b' : Int} (h1 : DecaysTo h p a b) (h2 : DecaysTo h p a' b') : a = a' ∧ b = b' := by
  obtain ⟨q, d, e, ds, hq, hds, rfl, rfl⟩ := h1
  obtain ⟨q', d', e', ds', hq', hds', rfl, rfl⟩ := h2
  obtain rfl := decaying_unique hq hq'
  rw [hds] at hds'; cases hds'
  exact ⟨rfl, rfl⟩

/-- Sorted keys. -/
def Keys (m : List (Int × Int)) : Prop := (m.map (·.1)).Pairwise (· < ·)

/-- The value of an element, 0 if there is none. -/
def cval (m : List (Int × Int)) (k : Int) : Int := (m.lookup k).getD 0

theorem lookupInt_cons {β : Type} (k k' : Int) (v : β) (m : List (Int × β)) : ((k', v) :: m).lookup k = if k = k' then some v else m.lookup k := by
  rw [List.lookup_cons]
  by_cases h : k = k'
  · rw [if_pos h]; simp [h]
  · rw [if_neg h]
    have : (k == k') = false := by simpa using h
    rw [this]

theorem lookup_none_of_lt {m : List (Int × Int)} {k : Int} (h : ∀ x ∈ m, k < x.1) : m.lookup k = none := by
  induction m with
  | nil => rfl
  | cons x m ih =>
    obtain ⟨k', c⟩ := x
    have := h (k', c) (by simp)
    rw [lookupInt_cons]
    simp only [] at this
    rw [if_neg (by omega)]
    exact ih fun x hx => h x (by simp [hx])

theorem mem_keys_add {m : List (Int × Int)} {k b : Int} {x : Int × Int} (hx : x ∈ pfCountAdd k b m) : x.1 = k ∨ ∃ c, (x.1, c) ∈ m := by
  induction m with
  | nil => simp [pfCountAdd] at hx; left; rw [hx]
  | cons y m ih =>
    obtain ⟨k', c⟩ := y
    unfold pfCountAdd at hx
    split at hx
    · simp only [List.mem_cons] at hx
      rcases hx with rfl | rfl | hx
      · left; rfl
      · right; exact ⟨c, by simp⟩
      · right; exact ⟨x.2, by simp [hx]⟩
    · split at hx
      · simp only [List.mem_cons] at hx
        rcases hx with rfl | hx
        · left; rfl
        · right; exact ⟨x.2, by simp [hx]⟩
      · simp only [List.mem_cons] at hx
        rcases hx with rfl | hx
        · right; exact ⟨c, by simp⟩
        · rcases ih hx with h | ⟨c', h⟩
          · left; exact h
          · right; exact ⟨c', by simp [h]⟩

theorem keys_add {m : List (Int × Int)} (hm : Keys m) (k b : Int) : Keys (pfCountAdd k b m) := by
  induction m with
  | nil => simp [pfCountAdd, Keys]
  | cons y m ih =>
    obtain ⟨k', c⟩ := y
    unfold Keys at hm
    simp only [List.map_cons, List.pairwise_cons] at hm
    unfold pfCountAdd
    split
    · rename_i hk
      simp only [Keys, List.map_cons, List.pairwise_cons, List.mem_cons]
      refine ⟨?_, hm⟩
      rintro x (rfl | hx)
      · exact hk
      · have := hm.1 x hx; omega
    · split
      · rename_i hk
        subst hk
        simpa [Keys] using hm
      · rename_i hk1 hk2
        simp only [Keys, List.map_cons, List.pairwise_cons]
        refine ⟨?_, ih hm.2⟩
        intro x hx
        obtain ⟨y, hy, rfl⟩ := List.mem_map.1 hx
        rcases mem_keys_add hy with h | ⟨c', h⟩
        · omega
        · exact hm.1 _ (List.mem_map.2 ⟨_, h, rfl⟩)

theorem cval_add {m : List (Int × Int)} (hm : Keys m) (k b k' : Int) : cval (pfCountAdd k b m) k' = cval m k' + if k' = k then b else 0 := by
  induction m with
  | nil =>
    unfold cval pfCountAdd
    rw [lookupInt_cons]
    by_cases h : k' = k <;> simp [h]
  | cons y m ih =>
    obtain ⟨k₁, c⟩ := y
    have hm' := hm
    unfold Keys at hm
    simp only [List.map_cons, List.pairwise_cons] at hm
    unfold pfCountAdd
    split
    · rename_i hk
      have hno : ((k₁, c) :: m).lookup k = none := by
        apply lookup_none_of_lt
        intro x hx
        simp only [List.mem_cons] at hx
        rcases hx with rfl | hx
        · exact hk
        · have := hm.1 x.1 (List.mem_map.2 ⟨x, hx, rfl⟩); omega
      by_cases h : k' = k
      · subst h
        unfold cval
        rw [hno, lookupInt_cons]
        simp
      · unfold cval
        rw [lookupInt_cons]
        simp [h]
    · split
      · rename_i hk
        subst hk
        unfold cval
        rw [lookupInt_cons, lookupInt_cons]
        by_cases h : k' = k <;> simp [h]
      · rename_i hk1 hk2
        have := ih hm.2
        unfold cval at this ⊢
        rw [lookupInt_cons, lookupInt_cons]
        by_cases h : k' = k₁
        · subst h
          simp
          omega
        · rw [if_neg h, if_neg h]
          exact this

theorem lookup_mem {m : List (Int × Int)} (hm : Keys m) {k c : Int} : (k, c) ∈ m ↔ m.lookup k = some c := by
  induction m with
  | nil => simp
  | cons y m ih =>
    obtain ⟨k₁, c₁⟩ := y
    unfold Keys at hm
    simp only [List.map_cons, List.pairwise_cons] at hm
    rw [lookupInt_cons]
    by_cases h : k = k₁
    · subst h
      simp only [if_true, List.mem_cons, Prod.mk.injEq, true_and, Option.some.injEq]
      constructor
      · rintro (h | h)
        · exact h.symm
        · have := hm.1 k (List.mem_map.2 ⟨_, h, rfl⟩); omega
      · intro h; left; exact h.symm
    · rw [if_neg h]
      simp only [List.mem_cons, Prod.mk.injEq, h, false_and, false_or]
      exact ih hm.2

theorem has_addFS (flag : BitVec 32) (k : Int) (f : PF) : pfHas (pfAddFS flag k).1 f = true ↔ pfHas flag f = true ∨ pfMapFS.lookup k = some f := by
  unfold pfAddFS
  cases pfMapFS.lookup k with
  | none => simp
  | some g =>
    simp only [has_add, Bool.or_eq_true, decide_eq_true_eq, Option.some.injEq]
    constructor
    · rintro (h | h)
      · right; exact h.symm
      · left; exact h
    · rintro (h | h)
      · right; exact h
      · left; exact h.symm

theorem has_addHiggs (flag : BitVec 32) (k : Int) (f : PF) : pfHas (pfAddHiggs flag k).1 f = true ↔ pfHas flag f = true ∨ pfMapH.lookup k = some f := by
  unfold pfAddHiggs
  cases pfMapH.lookup k with
  | none => simp
  | some g =>
    simp only [has_add, Bool.or_eq_true, decide_eq_true_eq, Option.some.injEq]
    constructor
    · rintro (h | h)
      · right; exact h.symm
      · left; exact h
    · rintro (h | h)
      · right; exact h
      · left; exact h.symm

theorem has_if (c : Prop) [Decidable c] (flag : BitVec 32) (g f : PF) : pfHas (if c then pfAdd flag g else flag) f = true ↔ pfHas flag f = true ∨ (c ∧ f = g) := by
  by_cases h : c
  · rw [if_pos h, has_add]; simp [h]; tauto
  · rw [if_neg h]; simp [h]

theorem has_final_mem (m : List (Int × Int)) (flag : BitVec 32) (f : PF) : pfHas (pfFinal flag m) f = true ↔
    pfHas flag f = true ∨ ∃ k c, (k, c) ∈ m ∧ ((c > 0 ∧ pfMapFS.lookup k = some f) ∨ (c > 1000000 ∧ f = .exotic)) := by
  induction m generalizing flag with
  | nil => simp [pfFinal]
  | cons y m ih =>
    obtain ⟨k, c⟩ := y
    unfold pfFinal
    simp only []
    rw [ih, has_if]
    have : pfHas (if c > 0 then (pfAddFS flag k).1 else flag) f = true ↔ pfHas flag f = true ∨ (c > 0 ∧ pfMapFS.lookup k = some f) := by
      by_cases h : c > 0
      · rw [if_pos h, has_addFS]; simp [h]
      · rw [if_neg h]; simp [h]
    rw [this]
    constructor
    · rintro (((h | h) | h) | ⟨k', c', hm, h⟩)
      · left; exact h
      · right; exact ⟨k, c, by simp, Or.inl h⟩
      · right; exact ⟨k, c, by simp, Or.inr h⟩
      · right; exact ⟨k', c', by simp [hm], h⟩
    · rintro (h | ⟨k', c', hm, h⟩)
      · left; left; left; exact h
      · simp only [List.mem_cons, Prod.mk.injEq] at hm
        rcases hm with ⟨rfl, rfl⟩ | hm
        · rcases h with h | h
          · left; left; right; exact h
          · left; right; exact h
        · right; exact ⟨k', c', hm, h⟩

theorem has_final {m : List (Int × Int)} (hm : Keys m) (f : PF) : pfHas (pfFinal 0 m) f = true ↔
    ∃ k, (cval m k > 0 ∧ pfMapFS.lookup k = some f) ∨ (cval m k > 1000000 ∧ f = .exotic) := by
  rw [has_final_mem, has_zero]
  simp only [Bool.false_eq_true, false_or]
  constructor
  · rintro ⟨k, c, hk, h⟩
    have : cval m k = c := by unfold cval; rw [(lookup_mem hm).1 hk]; rfl
    exact ⟨k, by rw [this]; exact h⟩
  · rintro ⟨k, h⟩
    unfold cval at h
    cases hl : m.lookup k with
    | none => rw [hl] at h; simp at h
    | some c => rw [hl] at h; exact ⟨k, c, (lookup_mem hm).2 hl, h⟩

/-- The second loop. -/
theorem pfFold {h : Mcs} (hmin : ∀ p, -2147483648 < (h p).pdg) (l : List Nat) (hl : ∀ x ∈ l, (h x).pdg.natAbs = 25 → ∃ a b, DecaysTo h x a b) :
    ∃ n, ∀ fuel ≥ n, ∀ s : PfState, Keys s.counts → ∃ s', l.foldlM (pfStep h fuel) s = .ok s' ∧ Keys s'.counts ∧
      (∀ k : Int, cval s'.counts k = cval s.counts k + (l.countP fun x => ((h x).pdg.natAbs : Int) = k : Nat)) ∧
      (s'.higgs = true ↔ s.higgs = true ∨ ∃ x ∈ l, (h x).pdg.natAbs = 25) ∧
      ((s'.higgs = s.higgs ∧ s'.hDpdg0 = s.hDpdg0 ∧ s'.hDpdg1 = s.hDpdg1) ∨ ∃ x ∈ l, (h x).pdg.natAbs = 25 ∧ DecaysTo h x s'.hDpdg0 s'.hDpdg1) := by
  induction l with
  | nil => exact ⟨0, fun fuel _ s hs => ⟨s, rfl, hs, by simp, by simp, Or.inl ⟨rfl, rfl, rfl⟩⟩⟩
  | cons p ps ih =>
    obtain ⟨n, hn⟩ := ih fun x hx => hl x (by simp [hx])
    have step : ∃ n₁, ∀ fuel ≥ n₁, ∀ s : PfState, ∃ s₁, pfStep h fuel s p = .ok s₁ ∧ s₁.counts = pfCountAdd (h p).pdg.natAbs 1 s.counts ∧
        (((h p).pdg.natAbs = 25 ∧ s₁.higgs = true ∧ DecaysTo h p s₁.hDpdg0 s₁.hDpdg1) ∨
         ((h p).pdg.natAbs ≠ 25 ∧ s₁.higgs = s.higgs ∧ s₁.hDpdg0 = s.hDpdg0 ∧ s₁.hDpdg1 = s.hDpdg1)) := by
      by_cases h25 : (h p).pdg.natAbs = 25
      · obtain ⟨a, b, q, d, e, ds, hq, hds, ha, hb⟩ := hl p (by simp) h25
        obtain ⟨n₁, hn₁⟩ := follow_ok hmin hq
        refine ⟨n₁, fun fuel hf s => ?_⟩
        unfold pfStep
        simp only [absInt_ok (hmin p), bind, Except.bind]
        rw [if_pos (by omega)]
        simp only [hn₁ fuel hf, hds]
        exact ⟨_, rfl, rfl, Or.inl ⟨h25, rfl, q, d, e, ds, hq, hds, rfl, rfl⟩⟩
      · refine ⟨0, fun fuel _ s => ?_⟩
        unfold pfStep
        simp only [absInt_ok (hmin p), bind, Except.bind]
        rw [if_neg (by omega)]
        exact ⟨_, rfl, rfl, Or.inr ⟨h25, rfl, rfl, rfl⟩⟩
    obtain ⟨n₁, hn₁⟩ := step
    refine ⟨max n n₁, fun fuel hf s hs => ?_⟩
    obtain ⟨s₁, e₁, c₁, d₁⟩ := hn₁ fuel (by omega) s
    obtain ⟨s', e', k', v', g', d'⟩ := hn fuel (by omega) s₁ (by rw [c₁]; exact keys_add hs _ _)
    refine ⟨s', ?_, k', ?_, ?_, ?_⟩
    · rw [List.foldlM_cons, e₁]; exact e'
    · intro k
      rw [v' k, c₁, cval_add hs, List.countP_cons]
      by_cases hk : ((h p).pdg.natAbs : Int) = k
      · simp [hk]; omega
      · have : ¬ k = ((h p).pdg.natAbs : Int) := fun e => hk e.symm
        simp [hk, this]
    · rw [g']
      rcases d₁ with ⟨h25, hg, _⟩ | ⟨h25, hg, _⟩
      · simp [hg, h25]
      · rw [hg]; simp [h25]
    · rcases d' with ⟨hg, h0, h1⟩ | ⟨x, hx, hd⟩
      · rcases d₁ with ⟨h25, _, hd⟩ | ⟨_, hg₁, h0₁, h1₁⟩
        · right; exact ⟨p, by simp, h25, by rw [h0, h1]; exact hd⟩
        · left; exact ⟨by rw [hg, hg₁], by rw [h0, h0₁], by rw [h1, h1₁]⟩
      · right; exact ⟨x, by simp [hx], hd⟩

theorem lookup_table {β : Type} (m : List (Int × β)) (hm : (m.map (·.1)).Nodup) (k : Int) (v : β) : m.lookup k = some v ↔ (k, v) ∈ m := by
  induction m with
  | nil => simp
  | cons y m ih =>
    obtain ⟨k₁, v₁⟩ := y
    simp only [List.map_cons, List.nodup_cons] at hm
    rw [lookupInt_cons]
    by_cases h : k = k₁
    · subst h
      simp only [if_true, List.mem_cons, Prod.mk.injEq, true_and, Option.some.injEq]
      constructor
      · intro h; left; exact h.symm
      · rintro (h | h)
        · exact h.symm
        · exact absurd (List.mem_map.2 ⟨_, h, rfl⟩) hm.1
    · rw [if_neg h]
      simp only [List.mem_cons, Prod.mk.injEq, h, false_and, false_or]
      exact ih hm.2

/-- The tables and the codes. -/
theorem lookupFS_iff (k : Int) (f : PF) : pfMapFS.lookup k = some f ↔ 0 ≤ k ∧ k.natAbs ∈ finalCodes f := by
  rw [lookup_table _ (by decide)]
  cases f <;> simp [pfMapFS, finalCodes] <;> omega

theorem lookupH_iff (k : Int) (f : PF) (hf : f ≠ .higgsgg) : pfMapH.lookup k = some f ↔ 0 ≤ k ∧ k.natAbs ∈ pairCodes f := by
  rw [lookup_table _ (by decide)]
  cases f <;> first | exact absurd rfl hf | (simp [pfMapH, pairCodes] <;> omega)

theorem lookupH_none (k : Int) : pfMapH.lookup k ≠ some .higgsgg := by
  rw [Ne, lookup_table _ (by decide)]
  simp [pfMapH]

end Util
