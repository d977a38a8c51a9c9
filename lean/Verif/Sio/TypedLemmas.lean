import Verif.Sio.ReadLemmas
/-
Abstract execution of the typed device calls, and write-then-read of a sequence of items.
-/
namespace Sio
open Spec

@[simp] theorem toNat_mod32 (v : W32) : v.toNat % 256 ^ 4 = v.toNat := Nat.mod_eq_of_lt v.isLt
@[simp] theorem toNat_mod64 (v : W64) : v.toNat % 256 ^ 8 = v.toNat := Nat.mod_eq_of_lt v.isLt

theorem runI_r32 (φ : Nat → Nat) (v : W32) (is : List Item) (n : Nat) (rg : List (Nat × Nat)) :
    r32.runI φ ⟨w32 v ++ is, n, rg⟩ = some (v, ⟨is, n, rg⟩) := by
  simp [r32, w32, RProg.runI, -Nat.reducePow]

theorem runI_r64 (φ : Nat → Nat) (v : W64) (is : List Item) (n : Nat) (rg : List (Nat × Nat)) :
    r64.runI φ ⟨w64 v ++ is, n, rg⟩ = some (v, ⟨is, n, rg⟩) := by
  simp [r64, w64, RProg.runI, -Nat.reducePow]

theorem runI_r32s (φ : Nat → Nat) (vs : List W32) (c : Nat) (hc : c = vs.length) (is : List Item) (n : Nat) (rg : List (Nat × Nat)) :
    (r32s c).runI φ ⟨w32s vs ++ is, n, rg⟩ = some (vs, ⟨is, n, rg⟩) := by
  subst hc
  simp only [r32s, w32s, List.cons_append, RProg.runI, List.length_map, and_self, if_true, List.map_map, Option.some.injEq, Prod.mk.injEq, List.nil_append, and_true]
  induction vs with
  | nil => rfl
  | cons v vs ih => simp only [List.map_cons, Function.comp_apply, toNat_mod32, BitVec.ofNat_toNat, BitVec.setWidth_eq, ih]

theorem runI_r64s (φ : Nat → Nat) (vs : List W64) (c : Nat) (hc : c = vs.length) (is : List Item) (n : Nat) (rg : List (Nat × Nat)) :
    (r64s c).runI φ ⟨w64s vs ++ is, n, rg⟩ = some (vs, ⟨is, n, rg⟩) := by
  subst hc
  simp only [r64s, w64s, List.cons_append, RProg.runI, List.length_map, and_self, if_true, List.map_map, Option.some.injEq, Prod.mk.injEq, List.nil_append, and_true]
  induction vs with
  | nil => rfl
  | cons v vs ih => simp only [List.map_cons, Function.comp_apply, toNat_mod64, BitVec.ofNat_toNat, BitVec.setWidth_eq, ih]

theorem runI_r8s (φ : Nat → Nat) (s : List Byte) (c : Nat) (hc : c = s.length) (is : List Item) (n : Nat) (rg : List (Nat × Nat)) :
    (r8s c).runI φ ⟨w8s s ++ is, n, rg⟩ = some (s, ⟨is, n, rg⟩) := by
  subst hc
  simp only [r8s, w8s, List.cons_append, RProg.runI, List.length_map, and_self, if_true, List.map_map, Option.some.injEq, Prod.mk.injEq, List.nil_append, and_true]
  induction s with
  | nil => rfl
  | cons v vs ih =>
    simp only [List.map_cons, Function.comp_apply, ih]
    congr 1
    rw [Nat.mod_eq_of_lt (by simpa using v.toNat_lt), UInt8.ofNat_toNat]

theorem runI_rPtr (φ : Nat → Nat) (a : Nat) (is : List Item) (n : Nat) (rg : List (Nat × Nat)) :
    rPtr.runI φ ⟨.ptr a :: is, n, rg⟩ = some (φ a, ⟨is, n, rg⟩) := rfl

theorem runI_rTag (φ : Nat → Nat) (a o : Nat) (is : List Item) (n : Nat) (rg : List (Nat × Nat)) :
    (rTag o).runI φ ⟨.tag a :: is, n, rg⟩ = some ((), ⟨is, n, rg ++ [(a, o)]⟩) := rfl

theorem runI_rNew (φ : Nat → Nat) (is : List Item) (n : Nat) (rg : List (Nat × Nat)) :
    rNew.runI φ ⟨is, n, rg⟩ = some (n, ⟨is, n + 1, rg⟩) := rfl

theorem len_pos (n : Nat) (h : n < 2 ^ 31) : ¬ (BitVec.ofNat 32 n).toInt < 0 := by
  rw [BitVec.toInt_eq_toNat_cond, BitVec.toNat_ofNat, Nat.mod_eq_of_lt (by omega), if_pos (by omega)]
  omega

theorem len_toNat (n : Nat) (h : n < 2 ^ 31) : (BitVec.ofNat 32 n).toNat = n := by
  rw [BitVec.toNat_ofNat, Nat.mod_eq_of_lt (by omega)]

theorem len_gt (n : Nat) (h : n < 2 ^ 31) : (BitVec.ofNat 32 n).toInt > 0 ↔ 0 < n := by
  rw [BitVec.toInt_eq_toNat_cond, BitVec.toNat_ofNat, Nat.mod_eq_of_lt (by omega), if_pos (by omega)]
  omega

theorem runI_rStr (φ : Nat → Nat) (s : List Byte) (h : s.length < 2 ^ 31) (is : List Item) (n : Nat) (rg : List (Nat × Nat)) :
    rStr.runI φ ⟨wStr s ++ is, n, rg⟩ = some (s, ⟨is, n, rg⟩) := by
  simp only [rStr, wStr, if_pos h]
  rw [List.append_assoc, runI_bind, runI_r32]
  simp only [Option.bind_some]
  rw [if_neg (len_pos _ h), runI_r8s _ _ _ (len_toNat _ h)]

theorem runI_rVec32 (φ : Nat → Nat) (old vs : List W32) (h : vs.length < 2 ^ 31) (is : List Item) (n : Nat) (rg : List (Nat × Nat)) :
    (rVec32 old).runI φ ⟨wVec32 vs ++ is, n, rg⟩ = some (if vs.isEmpty then old else vs, ⟨is, n, rg⟩) := by
  simp only [rVec32, wVec32]
  rw [List.append_assoc, runI_bind, runI_r32]
  simp only [Option.bind_some]
  cases vs with
  | nil => rfl
  | cons v vs => rw [if_pos ((len_gt _ h).2 (by simp))]; exact runI_r32s _ _ _ (len_toNat _ h) _ _ _

theorem runI_rVec64 (φ : Nat → Nat) (old vs : List W64) (h : vs.length < 2 ^ 31) (is : List Item) (n : Nat) (rg : List (Nat × Nat)) :
    (rVec64 old).runI φ ⟨wVec64 vs ++ is, n, rg⟩ = some (if vs.isEmpty then old else vs, ⟨is, n, rg⟩) := by
  simp only [rVec64, wVec64]
  rw [List.append_assoc, runI_bind, runI_r32]
  simp only [Option.bind_some]
  cases vs with
  | nil => rfl
  | cons v vs => rw [if_pos ((len_gt _ h).2 (by simp))]; exact runI_r64s _ _ _ (len_toNat _ h) _ _ _

/-- A counted loop reads a list element by element. -/
theorem runI_rRepeat {α β : Type} (φ : Nat → Nat) (p : RProg α) (w : β → List Item) (g : β → α)
    (h : ∀ b is n rg, p.runI φ ⟨w b ++ is, n, rg⟩ = some (g b, ⟨is, n, rg⟩)) (bs : List β) (c : Nat) (hc : c = bs.length)
    (is : List Item) (n : Nat) (rg : List (Nat × Nat)) :
    (rRepeat c p).runI φ ⟨bs.flatMap w ++ is, n, rg⟩ = some (bs.map g, ⟨is, n, rg⟩) := by
  subst hc
  induction bs generalizing is with
  | nil => rfl
  | cons b bs ih =>
    simp only [List.length_cons, rRepeat, List.flatMap_cons, List.append_assoc]
    rw [runI_bind, h]
    simp only [Option.bind_some]
    rw [runI_bind, ih]
    rfl

/-- As `runI_rRepeat`, with a condition on the elements. -/
theorem runI_rRepeat' {α β : Type} (φ : Nat → Nat) (p : RProg α) (w : β → List Item) (g : β → α) (bs : List β)
    (h : ∀ b ∈ bs, ∀ is n rg, p.runI φ ⟨w b ++ is, n, rg⟩ = some (g b, ⟨is, n, rg⟩)) (c : Nat) (hc : c = bs.length)
    (is : List Item) (n : Nat) (rg : List (Nat × Nat)) :
    (rRepeat c p).runI φ ⟨bs.flatMap w ++ is, n, rg⟩ = some (bs.map g, ⟨is, n, rg⟩) := by
  subst hc
  induction bs generalizing is with
  | nil => rfl
  | cons b bs ih =>
    simp only [List.length_cons, rRepeat, List.flatMap_cons, List.append_assoc]
    rw [runI_bind, h b (by simp)]
    simp only [Option.bind_some]
    rw [runI_bind, ih (fun b hb => h b (by simp [hb]))]
    rfl

theorem runI_rVecStr (φ : Nat → Nat) (old vs : List (List Byte)) (h : vs.length < 2 ^ 31) (hs : ∀ s ∈ vs, s.length < 2 ^ 31)
    (is : List Item) (n : Nat) (rg : List (Nat × Nat)) :
    (rVecStr old).runI φ ⟨wVecStr vs ++ is, n, rg⟩ = some (if vs.isEmpty then old else vs, ⟨is, n, rg⟩) := by
  simp only [rVecStr, wVecStr]
  rw [List.append_assoc, runI_bind, runI_r32]
  simp only [Option.bind_some]
  cases vs with
  | nil => rfl
  | cons v vs =>
    rw [if_pos ((len_gt _ h).2 (by simp))]
    have := runI_rRepeat' φ rStr wStr id (v :: vs) (fun b hb is n rg => runI_rStr φ b (hs b hb) is n rg) _ (len_toNat _ h) is n rg
    simpa using this

theorem map_blank_noref (is : List Item) (h : ∀ i ∈ is, isRef i = false) (b : Nat) :
    is.map blank = withWords (fun _ => 0) b is := by
  induction is generalizing b with
  | nil => rfl
  | cons i is ih =>
    simp only [List.map_cons, withWords]
    rw [ih (fun i hi => h i (by simp [hi])) (b + itemLen i)]
    have := h i (by simp)
    cases i <;> simp [isRef] at this <;> rfl

/-- Writing items without references and reading them back from the same place. -/
theorem run_then_read {α : Type} (p : RProg α) (is : List Item) (a : α) (hnoref : ∀ i ∈ is, isRef i = false) (hf : ∀ i ∈ is, fits i)
    (hp : ∀ n, p.runI (fun _ => 0) ⟨is ++ [], n, []⟩ = some (a, ⟨[], n, []⟩))
    (d : WDev) (hc : d.cur ≤ d.buf.length) (later : List Item) (hl : ∀ i ∈ later, fits i) :
    ∃ d1 d2, d.run is = .ok d1 ∧ d1.run later = .ok d2 ∧
      ∀ r : RDev, r.buf = d2.buf → r.cur = d.cur → ∃ r', p.run r = .ok (a, r') ∧ r'.cur = d1.cur ∧ r'.buf = r.buf := by
  obtain ⟨d1, h1, hcur1, hle1, _, ht1, _, _, _⟩ := WDev.run_eq d is hc hf
  obtain ⟨d2, h2, hcur2, hle2, _, ht2, hfr2, _, _⟩ := WDev.run_eq d1 later hle1 hl
  refine ⟨d1, d2, h1, h2, ?_⟩
  intro r hb hcur
  obtain ⟨used, nr, e1, e2, e3, e4⟩ := runI_run _ p _ _ _ (hp r.next)
  have hblank := fun b => map_blank_noref is hnoref b
  have hbuf : d2.buf = d.buf.take d.cur ++ bytesOf (withWords (fun _ => 0) 0 is) ++ (bytesOf (later.map blank) ++ d2.buf.drop d2.cur) := by
    rw [← hblank 0, ← ht1, ← List.append_assoc, ← ht2, List.take_append_drop]

  obtain ⟨r', f1, f2, f3, f4, f5, f6⟩ := e4 r (d.buf.take d.cur)
    (bytesOf (later.map blank) ++ d2.buf.drop d2.cur) 0 (fun _ => 0) (by rw [hb, List.append_nil]; exact hbuf)
    (by rw [hcur]; simp; omega) rfl
    (by
      intro o x hx
      simp)
    (by simpa using hf)
  refine ⟨r', f1, ?_, f2⟩
  simp only [List.append_nil] at e1
  rw [f3, hcur1, e1, List.length_take, Nat.min_eq_left hc]

end Sio
