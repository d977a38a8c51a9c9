import Verif.Spec.RunEvents
import Mathlib.Data.List.Nodup
/-
Lemmas about the run and event map.
-/
namespace Lcio
open Sio Spec

theorem RunEvent.ofLong_toLong (r : RunEvent) : RunEvent.ofLong r.toLong = r := by
  obtain ⟨a, b⟩ := r
  unfold RunEvent.ofLong RunEvent.toLong
  have m : ∀ i, i < 32 → (0xffffffff#64).getLsbD i = true := by decide
  have m2 : ∀ i, i < 64 → 32 ≤ i → (0xffffffff#64).getLsbD i = false := by decide
  congr 1
  · ext i hi
    simp only [BitVec.getElem_setWidth, BitVec.getLsbD_and, BitVec.getLsbD_sshiftRight, BitVec.getLsbD_or, BitVec.getLsbD_shiftLeft,
      BitVec.getLsbD_signExtend, BitVec.ofNat_eq_ofNat]
    rw [m i hi]
    have h1 : ¬ (64 ≤ i) := by omega
    have h2 : 32 + i < 64 := by omega
    have h3 : (0xffffffff#64)[32 + i]'h2 = false := by
      rw [← BitVec.getLsbD_eq_getElem]; exact m2 (32 + i) h2 (by omega)
    have h4 : ¬ (32 + i < 32) := by omega
    have h5 : i < 64 := by omega
    simp [h1, h2, h3, hi, h4, h5]
  · ext i hi
    simp only [BitVec.getElem_setWidth, BitVec.getLsbD_and, BitVec.getLsbD_or, BitVec.getLsbD_shiftLeft,
      BitVec.getLsbD_signExtend, BitVec.ofNat_eq_ofNat]
    rw [m i hi]
    have h1 : i < 64 := by omega
    simp [h1, hi]

/-- The position of a key in the order. -/
def RunEvent.rank (r : RunEvent) : Int :=
  if r.evt.toInt < 0 then r.run.toInt + 2 ^ 31 else 2 ^ 32 + (r.run.toInt + 2 ^ 31) * 2 ^ 32 + r.evt.toInt

theorem toInt_range (a : W32) : -2147483648 ≤ a.toInt ∧ a.toInt < 2147483648 := by
  have h1 := BitVec.le_toInt a
  have h2 := BitVec.toInt_lt (x := a)
  simp at h1 h2
  omega

theorem RunEvent.lt_iff (a b : RunEvent) : RunEvent.lt a b = true ↔ a.rank < b.rank := by
  have ha := toInt_range a.run
  have hb := toInt_range b.run
  have ha2 := toInt_range a.evt
  have hb2 := toInt_range b.evt
  unfold RunEvent.lt RunEvent.rank
  split
  · split
    · rename_i h1 h2
      simp only [decide_eq_true_eq]
      omega
    · rename_i h1 h2
      simp only [true_iff]
      omega
  · split
    · rename_i h1 h2
      simp only [Bool.false_eq_true, false_iff]
      omega
    · rename_i h1 h2
      split
      · rename_i h3
        rw [h3]
        simp only [decide_eq_true_eq]
        omega
      · rename_i h3
        have : a.run.toInt ≠ b.run.toInt := fun h => h3 (BitVec.eq_of_toInt_eq h)
        simp only [decide_eq_true_eq]
        omega

theorem RunEvent.eqv_iff (a b : RunEvent) : eqv RunEvent.lt a b = true ↔ a.rank = b.rank := by
  unfold eqv
  have h1 := RunEvent.lt_iff a b
  have h2 := RunEvent.lt_iff b a
  cases hab : RunEvent.lt a b <;> cases hba : RunEvent.lt b a <;> simp [hab, hba] at h1 h2 ⊢ <;> omega

theorem RunEvent.strictWeak : StrictWeak RunEvent.lt := by
  refine ⟨?_, ?_, ?_⟩
  · intro a
    rw [← Bool.not_eq_true, RunEvent.lt_iff]; omega
  · intro a b c
    simp only [RunEvent.lt_iff]; omega
  · intro a b c
    simp only [RunEvent.eqv_iff]; omega

theorem rank_sign (a b : RunEvent) (h : a.rank = b.rank) : (a.evt.toInt < 0 ↔ b.evt.toInt < 0) ∧ a.run = b.run := by
  have ha := toInt_range a.run
  have hb := toInt_range b.run
  have ha2 := toInt_range a.evt
  have hb2 := toInt_range b.evt
  have : (a.evt.toInt < 0 ↔ b.evt.toInt < 0) ∧ a.run.toInt = b.run.toInt := by
    unfold RunEvent.rank at h
    split at h <;> split at h <;> omega
  exact ⟨this.1, BitVec.eq_of_toInt_eq this.2⟩

/-- Among regular keys equivalence is equality. -/
theorem rank_inj (a b : RunEvent) (ha : -1 ≤ a.evt.toInt) (hb : -1 ≤ b.evt.toInt) (h : a.rank = b.rank) : a = b := by
  have h1 := rank_sign a b h
  have h2 : a.evt.toInt = b.evt.toInt := by
    have hr : a.run.toInt = b.run.toInt := by rw [h1.2]
    unfold RunEvent.rank at h
    split at h <;> split at h <;> omega
  obtain ⟨r, e⟩ := a
  obtain ⟨r', e'⟩ := b
  have := BitVec.eq_of_toInt_eq h2
  simp_all

/-- What holds for a map built by additions `l`. -/
structure MapInv (m : RunEventMap) (l : List (RunEvent × W64)) : Prop where
  ordered : Ordered RunEvent.lt m.map
  find : ∀ re, omFind RunEvent.lt re m.map = (l.reverse.find? fun x => eqv RunEvent.lt x.1 re).map (·.2)
  keys : ∀ k ∈ m.map.map (·.1), k ∈ l.map (·.1)
  runs : m.nRun = (m.map.map (·.1)).countP fun k => decide (k.evt.toInt < 0)
  evts : m.nEvt = (m.map.map (·.1)).countP fun k => decide (0 ≤ k.evt.toInt)

theorem MapInv.empty : MapInv {} [] := by
  refine ⟨List.Pairwise.nil, fun re => rfl, fun k hk => ?_, rfl, rfl⟩
  cases hk

theorem MapInv.add {m : RunEventMap} {l : List (RunEvent × W64)} (h : MapInv m l) (re : RunEvent) (pos : W64) :
    MapInv (m.add re pos) (l ++ [(re, pos)]) := by
  obtain ⟨k1, k2, k3⟩ := omAssign_keys RunEvent.strictWeak re pos m.map h.ordered
  have hfind : ∀ r, omFind RunEvent.lt r (omAssign RunEvent.lt re pos m.map).1 =
      ((l ++ [(re, pos)]).reverse.find? fun x => eqv RunEvent.lt x.1 r).map (·.2) := by
    intro r
    rw [omFind_assign RunEvent.strictWeak, List.reverse_append, List.reverse_singleton, List.singleton_append, List.find?_cons]
    cases hx : eqv RunEvent.lt re r with
    | true => rfl
    | false => simp only [Bool.false_eq_true, if_false]; exact h.find r
  unfold RunEventMap.add
  rw [RunEvent.ofLong_toLong]
  simp only
  cases hb : (omAssign RunEvent.lt re pos m.map).2 with
  | false =>
    simp only [Bool.false_eq_true, if_false]
    have hk := (k3 hb).1
    refine ⟨k1, hfind, ?_, ?_, ?_⟩
    · intro k; simp only; rw [hk, List.map_append]; intro hk'; exact List.mem_append_left _ (h.keys k hk')
    · simp only; rw [hk]; exact h.runs
    · simp only; rw [hk]; exact h.evts
  | true =>
    simp only [if_true]
    have hk := (k2 hb).1
    have hmem : ∀ k ∈ (omAssign RunEvent.lt re pos m.map).1.map (·.1), k ∈ (l ++ [(re, pos)]).map (·.1) := by
      intro k hk'
      rw [hk.mem_iff] at hk'
      rw [List.map_append]
      rcases List.mem_cons.1 hk' with rfl | hk'
      · exact List.mem_append_right _ (by simp)
      · exact List.mem_append_left _ (h.keys k hk')
    have c1 := h.runs
    have c2 := h.evts
    split
    · rename_i he
      refine ⟨k1, hfind, hmem, ?_, ?_⟩
      · simp only; rw [hk.countP_eq, List.countP_cons_of_neg (by simp; omega), c1]
      · simp only; rw [hk.countP_eq, List.countP_cons_of_pos (by simp; omega), c2]
    · rename_i he
      refine ⟨k1, hfind, hmem, ?_, ?_⟩
      · simp only; rw [hk.countP_eq, List.countP_cons_of_pos (by simp; omega), c1]
      · simp only; rw [hk.countP_eq, List.countP_cons_of_neg (by simp; omega), c2]

theorem build_inv (ops : List MapOp) : MapInv (build ops) (additions ops) := by
  unfold build additions
  have : ∀ (ops : List MapOp) (m : RunEventMap) (l : List (RunEvent × W64)), MapInv m l →
      MapInv (ops.foldl (fun m op => match op with | .add re pos => m.add re pos | .clear => m.clear) m)
        (ops.foldl (fun l op => match op with | .add re pos => l ++ [(re, pos)] | .clear => []) l) := by
    intro ops
    induction ops with
    | nil => intro m l h; exact h
    | cons op ops ih =>
      intro m l h
      simp only [List.foldl_cons]
      cases op with
      | add re pos => exact ih _ _ (h.add re pos)
      | clear => exact ih _ _ MapInv.empty
  exact this ops _ _ MapInv.empty

theorem MapInv.nodup {m : RunEventMap} {l : List (RunEvent × W64)} (h : MapInv m l) : (m.map.map (·.1)).Nodup := by
  have := h.ordered
  unfold Ordered at this
  rw [List.Nodup, List.pairwise_map]
  refine this.imp ?_
  intro a b hab heq
  rw [heq, RunEvent.strictWeak.irrefl] at hab
  cases hab

/-- The keys of the map are the keys that were added. -/
theorem MapInv.keys_iff {m : RunEventMap} {l : List (RunEvent × W64)} (h : MapInv m l) (hreg : ∀ x ∈ l, -1 ≤ x.1.evt.toInt) (k : RunEvent) :
    k ∈ m.map.map (·.1) ↔ k ∈ l.map (·.1) := by
  refine ⟨h.keys k, ?_⟩
  intro hk
  obtain ⟨x, hx, rfl⟩ := List.mem_map.1 hk
  have hf := h.find x.1
  have : (l.reverse.find? fun y => eqv RunEvent.lt y.1 x.1).isSome := by
    rw [List.find?_isSome]
    exact ⟨x, by simpa using hx, eqv_refl RunEvent.strictWeak _⟩
  obtain ⟨y, hy⟩ := Option.isSome_iff_exists.1 this
  rw [hy] at hf
  unfold omFind at hf
  rw [Option.map_some, Option.map_eq_some_iff] at hf
  obtain ⟨z, hz, -⟩ := hf
  have hz1 := List.mem_of_find?_eq_some hz
  have hz2 := List.find?_some hz
  rw [RunEvent.eqv_iff] at hz2
  have hzk : z.1 ∈ m.map.map (·.1) := List.mem_map_of_mem hz1
  obtain ⟨w, hw, hwz⟩ := List.mem_map.1 (h.keys _ hzk)
  have : z.1 = x.1 := rank_inj _ _ (by rw [← hwz]; exact hreg w hw) (hreg x hx) hz2
  rw [← this]; exact hzk

theorem mem_distinct {α : Type} [DecidableEq α] (l : List α) (a : α) : a ∈ distinct l ↔ a ∈ l := by
  induction l with
  | nil => simp [distinct]
  | cons b l ih =>
    unfold distinct
    split
    · rename_i h
      rw [ih, List.mem_cons]
      constructor
      · exact .inr
      · rintro (rfl | h')
        · exact h
        · exact h'
    · rw [List.mem_cons, List.mem_cons, ih]

theorem nodup_distinct {α : Type} [DecidableEq α] (l : List α) : (distinct l).Nodup := by
  induction l with
  | nil => exact List.nodup_nil
  | cons b l ih =>
    unfold distinct
    split
    · exact ih
    · rename_i h
      exact List.nodup_cons.2 ⟨by rw [mem_distinct]; exact h, ih⟩

theorem MapInv.count {m : RunEventMap} {l : List (RunEvent × W64)} (h : MapInv m l) (hreg : ∀ x ∈ l, -1 ≤ x.1.evt.toInt) (p : RunEvent → Bool) :
    (m.map.map (·.1)).countP p = (distinct ((l.map (·.1)).filter p)).length := by
  rw [List.countP_eq_length_filter]
  apply List.Perm.length_eq
  rw [List.perm_ext_iff_of_nodup (h.nodup.filter _) (nodup_distinct _)]
  intro a
  rw [mem_distinct, List.mem_filter, List.mem_filter, h.keys_iff hreg]

/-- The run headers come first in the map. -/
theorem split_runs (m : List (RunEvent × W64)) (h : Ordered RunEvent.lt m) :
    m.take ((m.map (·.1)).countP fun k => decide (k.evt.toInt < 0)) = m.filter (fun e => decide (e.1.evt.toInt < 0)) ∧
    m.drop ((m.map (·.1)).countP fun k => decide (k.evt.toInt < 0)) = m.filter (fun e => decide (0 ≤ e.1.evt.toInt)) := by
  induction m with
  | nil => exact ⟨rfl, rfl⟩
  | cons e m ih =>
    have h' := List.pairwise_cons.1 h
    have ih := ih h'.2
    by_cases he : e.1.evt.toInt < 0
    · rw [List.map_cons, List.countP_cons_of_pos (by simpa using he), List.take_succ_cons, List.drop_succ_cons,
        List.filter_cons_of_pos (by simpa using he), List.filter_cons_of_neg (by simp; omega)]
      exact ⟨by rw [ih.1], ih.2⟩
    · have hall : ∀ x ∈ e :: m, 0 ≤ x.1.evt.toInt := by
        intro x hx
        rcases List.mem_cons.1 hx with rfl | hx
        · omega
        · have := h'.1 x hx
          unfold RunEvent.lt at this
          rw [if_neg he] at this
          by_cases hx2 : x.1.evt.toInt < 0
          · rw [if_pos hx2] at this; cases this
          · omega
      have h0 : ((e :: m).map (·.1)).countP (fun k => decide (k.evt.toInt < 0)) = 0 := by
        rw [List.countP_eq_zero]
        intro k hk
        obtain ⟨x, hx, rfl⟩ := List.mem_map.1 hk
        have := hall x hx
        simp; omega
      rw [h0]
      refine ⟨?_, ?_⟩
      · rw [List.take_zero]
        symm
        rw [List.filter_eq_nil_iff]
        intro x hx
        have := hall x hx
        simp; omega
      · rw [List.drop_zero]
        symm
        rw [List.filter_eq_self]
        intro x hx
        simpa using hall x hx

end Lcio
