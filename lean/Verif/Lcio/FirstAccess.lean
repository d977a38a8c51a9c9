import Verif.Lcio.SummaryLemmas
/-
Where the first random access record of a file is.
-/
namespace Lcio
open Sio Spec
variable {codec : Codec} {std : Std Pid}

/-- The file record of a file: where the first random access record is. -/
theorem history_prev {cs : List Chunk} {last f : Option RandomAccess} (h : History codec std cs last f) (hs : sizeOf cs < 2 ^ 63) :
    (cs = [] ∧ last = none ∧ f = none) ∨
    ∃ c cs' l a m k, cs = c :: cs' ∧ c.Ok codec std 0 0 ∧ last = some l ∧ f = some a ∧ a.prevLoc = BitVec.ofNat 64 (c.loc 0) ∧
      l.firstLoc = BitVec.ofNat 64 m ∧ c.loc 0 ≤ m ∧ m < sizeOf cs ∧ l.prevLoc = BitVec.ofNat 64 k ∧ (k = 0 ∨ c.loc 0 ≤ k) ∧ k < 2 ^ 63 := by
  induction h with
  | nil => exact .inl ⟨rfl, rfl, rfl⟩
  | snoc cs last f c h hc ih =>
    right
    have h1 := sizeOf_snoc cs c
    have hp : 0 < c.acc.wire.length := Nat.lt_of_lt_of_le (by decide) (wire_pos _)
    have hz : (0 : W64) = BitVec.ofNat 64 0 := rfl
    have hmax : (9223372036854775807 : W64) = BitVec.ofNat 64 (2 ^ 63 - 1) := by decide
    have hi : c.loc (sizeOf cs) = sizeOf cs + (fileOf c.groups.flatten).length + c.ix.wire.length := rfl
    have hx : 0 < c.ix.wire.length := Nat.lt_of_lt_of_le (by decide) (wire_pos _)
    rcases ih (by omega) with ⟨rfl, rfl, rfl⟩ | ⟨c0, cs', l, a, m, k, rfl, e0, rfl, rfl, e1, e2, e3, e4, e5, e6, e7⟩
    · refine ⟨c, [], _, _, c.loc 0, 0, rfl, hc, rfl, rfl, ?_, rfl, Nat.le_refl _, ?_, rfl, .inl rfl, by omega⟩
      · have hz0 : sizeOf [] = 0 := rfl
        rw [hz0] at hi h1 ⊢
        unfold closing
        simp only [Option.toList, List.nil_append, List.foldl_cons, List.foldl_nil, fileRecordStep, Option.getD_none, newFileRecord, Chunk.access, prevOf, Option.map_none]
        rw [hmax, hz]
        simp only [slt_ofNat 0 0 (by omega) (by omega), Nat.lt_irrefl, decide_false, Bool.false_and, Bool.false_eq_true, if_false]
        rw [slt_ofNat _ _ (by omega) (by omega)]
        split
        · rfl
        · next hh => simp only [decide_eq_true_eq] at hh; congr 1; omega
      · rw [h1]; have hz0 : sizeOf [] = 0 := rfl
        rw [hz0]; omega
    · refine ⟨c0, cs' ++ [c], _, _, c.loc (sizeOf (c0 :: cs')), m, rfl, e0, rfl, rfl, ?_, rfl, by omega, by omega, e2, .inr e3, by omega⟩
      unfold closing
      simp only [Option.toList, List.cons_append, List.nil_append, List.foldl_cons, List.foldl_nil, fileRecordStep, Option.getD_some, Chunk.access, prevOf, Option.map_some, e1, e2, e5]
      rw [hz]
      have s1 : ((BitVec.ofNat 64 0).slt (BitVec.ofNat 64 k) && (BitVec.ofNat 64 k).slt (BitVec.ofNat 64 (c0.loc 0))) = false := by
        rw [slt_ofNat _ _ (by omega) (by omega), slt_ofNat _ _ (by omega) (by omega)]
        simp only [Bool.and_eq_false_iff, decide_eq_false_iff_not]
        omega
      have s2 : ((BitVec.ofNat 64 0).slt (BitVec.ofNat 64 m) && (BitVec.ofNat 64 m).slt (BitVec.ofNat 64 (c0.loc 0))) = false := by
        rw [slt_ofNat _ _ (by omega) (by omega), slt_ofNat _ _ (by omega) (by omega)]
        simp only [Bool.and_eq_false_iff, decide_eq_false_iff_not]
        omega
      have s3 : (BitVec.ofNat 64 (c.loc (sizeOf (c0 :: cs')))).slt (BitVec.ofNat 64 (c0.loc 0)) = false := by
        rw [slt_ofNat _ _ (by omega) (by omega)]
        simp only [decide_eq_false_iff_not]
        omega
      simp only [s1, s2, s3, Bool.false_eq_true, if_false]

theorem chunk_names {start : Nat} {prev : W64} {c : Chunk} (hc : c.Ok codec std start prev) : ∀ r ∈ c.groups.flatten ++ [c.ix], r.name ≠ accessName := by
  intro r hr
  rcases List.mem_append.1 hr with hr | hr
  · obtain ⟨g, hg, hr⟩ := List.mem_flatten.1 hr
    obtain ⟨i, hi, rfl⟩ := List.getElem_of_mem hg
    have hi' : i < c.puts.length := by rw [hc.puts.1]; exact hi
    have hh := hc.puts.2 i _ _ (List.getElem?_eq_getElem hi') (List.getElem?_eq_getElem hi)
    cases hp : c.puts[i] with
    | run h buf =>
      rw [hp] at hh
      obtain ⟨r', e, h1, -⟩ := hh
      rw [e] at hr
      simp only [List.mem_singleton] at hr
      subst hr
      rw [h1.named]; decide
    | event h cols buf =>
      rw [hp] at hh
      obtain ⟨r', r'', e, h1, h2⟩ := hh
      rw [e] at hr
      simp only [List.mem_cons, List.not_mem_nil, or_false] at hr
      rcases hr with rfl | rfl
      · rw [h1.named]; decide
      · rw [h2.named]; decide
  · simp only [List.mem_singleton] at hr
    subst hr
    rw [hc.ix.named]; decide

end Lcio
