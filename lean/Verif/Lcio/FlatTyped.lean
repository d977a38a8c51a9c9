import Verif.Lcio.Collection
import Verif.Lcio.ParamsLemmas
import Verif.Sio.FlatLemmas
import Verif.Spec.Objects
/-
Flat execution of the typed device calls.
-/
namespace Lcio
open Sio Spec

theorem small_count (n : Nat) (h : small n) : loops (BitVec.ofNat 32 n) = n := by
  unfold loops
  rw [if_neg (len_pos n h), len_toNat n h]

/-! ### Flattening -/

theorem flat_w32 (v : W32) : flat (w32 v) = w32 v := rfl
theorem flat_w64 (v : W64) : flat (w64 v) = w64 v := rfl
theorem flat_wPtr (a : Nat) : flat (wPtr a) = wPtr a := rfl
theorem flat_wTag (a : Nat) : flat (wTag a) = wTag a := rfl

theorem flat_flatMap {β : Type} (w : β → List Item) (l : List β) : flat (l.flatMap w) = l.flatMap fun x => flat (w x) := by
  induction l with
  | nil => rfl
  | cons x l ih => rw [List.flatMap_cons, flat_append, ih, List.flatMap_cons]

theorem flat_w32s (vs : List W32) : flat (w32s vs) = vs.flatMap w32 := by
  unfold flat w32s
  rw [List.flatMap_singleton, flatItem_unp 4 rfl]
  induction vs with
  | nil => rfl
  | cons v vs ih => rw [List.flatMap_cons, ← ih]; rfl

theorem flat_w64s (vs : List W64) : flat (w64s vs) = vs.flatMap w64 := by
  unfold flat w64s
  rw [List.flatMap_singleton, flatItem_unp 8 rfl]
  induction vs with
  | nil => rfl
  | cons v vs ih => rw [List.flatMap_cons, ← ih]; rfl

theorem flat_each32 (vs : List W32) : flat (vs.flatMap w32) = vs.flatMap w32 := by rw [flat_flatMap]; rfl
theorem flat_each64 (vs : List W64) : flat (vs.flatMap w64) = vs.flatMap w64 := by rw [flat_flatMap]; rfl

theorem flat_wIf (c : Bool) (is : List Item) : flat (wIf c is) = wIf c (flat is) := by cases c <;> rfl

theorem flat_wBool (b : Bool) : flat (wBool b) = w32 (if b then 0x01000000 else 0) := by cases b <;> rfl

theorem flat_wEach {β : Type} (w : β → List Item) (l : List β) : flat (wEach w l) = wEach (fun x => flat (w x)) l := by
  unfold wEach; rw [flat_append, flat_flatMap]; rfl

theorem wFor_eq {β : Type} (w : β → List Item) (l : List β) (h : small l.length) : wFor w l = wEach w l := by
  unfold wFor wEach; rw [small_count _ h, List.take_length]

/-! ### Reading -/

theorem takeSingles_32 (vs : List W32) (is : List Item) : takeSingles 4 vs.length (vs.flatMap w32 ++ is) = some (vs.map BitVec.toNat, is) := by
  induction vs with
  | nil => rfl
  | cons v vs ih => simp [takeSingles, w32, ih]

theorem takeSingles_64 (vs : List W64) (is : List Item) : takeSingles 8 vs.length (vs.flatMap w64 ++ is) = some (vs.map BitVec.toNat, is) := by
  induction vs with
  | nil => rfl
  | cons v vs ih => simp [takeSingles, w64, ih]

variable (φ : Nat → Nat) (is : List Item) (n : Nat) (rg : List (Nat × Nat))

theorem runF_ret {α : Type} (a : α) (s : ISt) : (RProg.ret a).runF φ s = some (a, s) := rfl
theorem runF_pure {α : Type} (a : α) (s : ISt) : (pure a : RProg α).runF φ s = some (a, s) := rfl

theorem runF_map {α β : Type} (f : α → β) (p : RProg α) (s : ISt) : (f <$> p).runF φ s = (p.runF φ s).map fun r => (f r.1, r.2) := by
  have : f <$> p = p >>= fun a => .ret (f a) := rfl
  rw [this, runF_bind]
  cases p.runF φ s <;> rfl

theorem ofNat_toNat_map32 (vs : List W32) : ((vs.map BitVec.toNat).map (· % 256 ^ 4)).map (BitVec.ofNat 32) = vs := by
  induction vs with
  | nil => rfl
  | cons v vs ih => simp only [List.map_cons, ih, toNat_mod32, BitVec.ofNat_toNat, BitVec.setWidth_eq]

theorem ofNat_toNat_map64 (vs : List W64) : ((vs.map BitVec.toNat).map (· % 256 ^ 8)).map (BitVec.ofNat 64) = vs := by
  induction vs with
  | nil => rfl
  | cons v vs ih => simp only [List.map_cons, ih, toNat_mod64, BitVec.ofNat_toNat, BitVec.setWidth_eq]

theorem runF_r32s (vs : List W32) (c : Nat) (hc : vs.length = c) :
    (r32s c).runF φ ⟨vs.flatMap w32 ++ is, n, rg⟩ = some (vs, ⟨is, n, rg⟩) := by
  subst hc
  simp only [r32s, RProg.runF, Nat.reduceMod, if_true, takeSingles_32, ofNat_toNat_map32]

theorem runF_r64s (vs : List W64) (c : Nat) (hc : vs.length = c) :
    (r64s c).runF φ ⟨vs.flatMap w64 ++ is, n, rg⟩ = some (vs, ⟨is, n, rg⟩) := by
  subst hc
  simp only [r64s, RProg.runF, Nat.reduceMod, if_true, takeSingles_64, ofNat_toNat_map64]

theorem runF_r32 (v : W32) : r32.runF φ ⟨w32 v ++ is, n, rg⟩ = some (v, ⟨is, n, rg⟩) := by
  simp [r32, w32, RProg.runF, takeSingles, -Nat.reducePow]

theorem runF_r64 (v : W64) : r64.runF φ ⟨w64 v ++ is, n, rg⟩ = some (v, ⟨is, n, rg⟩) := by
  simp [r64, w64, RProg.runF, takeSingles, -Nat.reducePow]

theorem runF_rPtr (a : Nat) : rPtr.runF φ ⟨wPtr a ++ is, n, rg⟩ = some (φ a, ⟨is, n, rg⟩) := rfl
theorem runF_rTag (a o : Nat) : (rTag o).runF φ ⟨wTag a ++ is, n, rg⟩ = some ((), ⟨is, n, rg ++ [(a, o)]⟩) := rfl
theorem runF_rNew : rNew.runF φ ⟨is, n, rg⟩ = some (n, ⟨is, n + 1, rg⟩) := rfl

/-- A list of things that are read one by one without registering objects. -/
theorem runF_rRepeat {α β : Type} (p : RProg α) (w : β → List Item) (g : β → α) (l : List β) (c : Nat) (hc : l.length = c)
    (h : ∀ x ∈ l, ∀ is n rg, p.runF φ ⟨w x ++ is, n, rg⟩ = some (g x, ⟨is, n, rg⟩)) :
    (rRepeat c p).runF φ ⟨l.flatMap w ++ is, n, rg⟩ = some (l.map g, ⟨is, n, rg⟩) := by
  subst hc
  induction l with
  | nil => rfl
  | cons x l ih =>
    simp only [List.length_cons, rRepeat, List.flatMap_cons, List.append_assoc, runF_bind, h x (by simp), Option.bind_some,
      ih (fun y hy => h y (by simp [hy])), List.map_cons, runF_pure]

theorem runF_rCount (m : Nat) (h : small m) : rCount.runF φ ⟨w32 (BitVec.ofNat 32 m) ++ is, n, rg⟩ = some (m, ⟨is, n, rg⟩) := by
  unfold rCount
  rw [runF_bind, runF_r32]
  simp only [Option.bind_some]
  rw [if_neg (len_pos m h), len_toNat m h]; rfl

theorem runF_rSized {α β : Type} (p : RProg α) (w : β → List Item) (g : β → α) (l : List β) (hl : small l.length)
    (h : ∀ x ∈ l, ∀ is n rg, p.runF φ ⟨w x ++ is, n, rg⟩ = some (g x, ⟨is, n, rg⟩)) :
    (rSized p).runF φ ⟨wEach w l ++ is, n, rg⟩ = some (l.map g, ⟨is, n, rg⟩) := by
  unfold rSized wEach
  rw [List.append_assoc, runF_bind, runF_rCount _ _ _ _ _ hl]
  exact runF_rRepeat φ is n rg p w g l _ rfl h

theorem runF_rFor {α β : Type} (p : RProg α) (w : β → List Item) (g : β → α) (l : List β) (hl : small l.length)
    (h : ∀ x ∈ l, ∀ is n rg, p.runF φ ⟨w x ++ is, n, rg⟩ = some (g x, ⟨is, n, rg⟩)) :
    (rFor p).runF φ ⟨wEach w l ++ is, n, rg⟩ = some (l.map g, ⟨is, n, rg⟩) := by
  unfold rFor wEach
  rw [List.append_assoc, runF_bind, runF_r32]
  simp only [Option.bind_some]
  rw [small_count _ hl]
  exact runF_rRepeat φ is n rg p w g l _ rfl h

theorem runF_rSized32 (l : List W32) (hl : small l.length) : (rSized r32).runF φ ⟨wEach w32 l ++ is, n, rg⟩ = some (l, ⟨is, n, rg⟩) := by
  rw [runF_rSized φ is n rg r32 w32 id l hl (fun x _ is n rg => runF_r32 φ is n rg x), List.map_id]

theorem runF_rSizedPtr (l : List Nat) (hl : small l.length) : (rSized rPtr).runF φ ⟨wEach wPtr l ++ is, n, rg⟩ = some (l.map φ, ⟨is, n, rg⟩) :=
  runF_rSized φ is n rg rPtr wPtr φ l hl (fun x _ is n rg => runF_rPtr φ is n rg x)

theorem runF_rFor32 (l : List W32) (hl : small l.length) : (rFor r32).runF φ ⟨wEach w32 l ++ is, n, rg⟩ = some (l, ⟨is, n, rg⟩) := by
  rw [runF_rFor φ is n rg r32 w32 id l hl (fun x _ is n rg => runF_r32 φ is n rg x), List.map_id]

/-- A count followed by as many words, read by one call. -/
theorem runF_counted32 (l : List W32) (hl : small l.length) :
    (rCount >>= r32s).runF φ ⟨wEach w32 l ++ is, n, rg⟩ = some (l, ⟨is, n, rg⟩) := by
  unfold wEach
  rw [List.append_assoc, runF_bind, runF_rCount _ _ _ _ _ hl]
  exact runF_r32s φ is n rg l _ rfl

theorem runF_repeat32 (l : List W32) (c : Nat) (hc : l.length = c) : (rRepeat c r32).runF φ ⟨l.flatMap w32 ++ is, n, rg⟩ = some (l, ⟨is, n, rg⟩) := by
  rw [runF_rRepeat φ is n rg r32 w32 id l c hc (fun x _ is n rg => runF_r32 φ is n rg x), List.map_id]

/-! ### Calls under a condition -/

theorem runF_rIf {α : Type} (c : Bool) (p : RProg α) (d a : α) (w : List Item)
    (h : p.runF φ ⟨w ++ is, n, rg⟩ = some (a, ⟨is, n, rg⟩)) :
    (rIf c p d).runF φ ⟨wIf c w ++ is, n, rg⟩ = some (if c then a else d, ⟨is, n, rg⟩) := by
  cases c
  · rfl
  · exact h

theorem runF_if32 (c : Bool) (v d : W32) : (rIf c r32 d).runF φ ⟨wIf c (w32 v) ++ is, n, rg⟩ = some (if c then v else d, ⟨is, n, rg⟩) :=
  runF_rIf φ is n rg c r32 d v _ (runF_r32 ..)
theorem runF_if32s (c : Bool) (vs d : List W32) (k : Nat) (hk : vs.length = k) :
    (rIf c (r32s k) d).runF φ ⟨wIf c (vs.flatMap w32) ++ is, n, rg⟩ = some (if c then vs else d, ⟨is, n, rg⟩) :=
  runF_rIf φ is n rg c _ d vs _ (runF_r32s _ _ _ _ _ _ hk)
theorem runF_if64s (c : Bool) (vs d : List W64) (k : Nat) (hk : vs.length = k) :
    (rIf c (r64s k) d).runF φ ⟨wIf c (vs.flatMap w64) ++ is, n, rg⟩ = some (if c then vs else d, ⟨is, n, rg⟩) :=
  runF_rIf φ is n rg c _ d vs _ (runF_r64s _ _ _ _ _ _ hk)
theorem runF_ifRepeat (c : Bool) (vs d : List W32) (k : Nat) (hk : vs.length = k) :
    (rIf c (rRepeat k r32) d).runF φ ⟨wIf c (vs.flatMap w32) ++ is, n, rg⟩ = some (if c then vs else d, ⟨is, n, rg⟩) :=
  runF_rIf φ is n rg c _ d vs _ (runF_repeat32 _ _ _ _ _ _ hk)
theorem runF_ifPtrs (c : Bool) (l d : List Nat) (hl : small l.length) :
    (rIf c (rSized rPtr) d).runF φ ⟨wIf c (wEach wPtr l) ++ is, n, rg⟩ = some (if c then l.map φ else d, ⟨is, n, rg⟩) :=
  runF_rIf φ is n rg c _ d _ _ (runF_rSizedPtr _ _ _ _ _ hl)
theorem runF_ifCounted (c : Bool) (l d : List W32) (hl : small l.length) :
    (rIf c (rCount >>= r32s) d).runF φ ⟨wIf c (wEach w32 l) ++ is, n, rg⟩ = some (if c then l else d, ⟨is, n, rg⟩) :=
  runF_rIf φ is n rg c _ d _ _ (runF_counted32 _ _ _ _ _ hl)
theorem runF_ifTag (c : Bool) (a o : Nat) :
    (rIf c (rTag o) ()).runF φ ⟨wIf c (wTag a) ++ is, n, rg⟩ = some ((), ⟨is, n, rg ++ if c then [(a, o)] else []⟩) := by
  cases c
  · simp [rIf, wIf, runF_ret]
  · rfl

theorem rIf_true {α : Type} (p : RProg α) (d : α) : rIf true p d = p := rfl
theorem rIf_false {α : Type} (p : RProg α) (d : α) : rIf false p d = .ret d := rfl

/-! ### Lifting -/

/-- What reads the items as they were written also reads the flat items. -/
theorem runF_lift {α : Type} (p : RProg α) (w w' : List Item) (n n' : Nat) (rg rg' : List (Nat × Nat)) (a : α)
    (h : p.runI φ ⟨w, n, rg⟩ = some (a, ⟨w', n', rg'⟩)) (is : List Item) :
    p.runF φ ⟨flat w ++ is, n, rg⟩ = some (a, ⟨flat w' ++ is, n', rg'⟩) := by
  induction p generalizing w n rg with
  | ret x =>
    simp only [RProg.runI, Option.some.injEq, Prod.mk.injEq, ISt.mk.injEq] at h
    obtain ⟨rfl, rfl, rfl, rfl⟩ := h
    rfl
  | throw e => cases h
  | arr sz c k ih =>
    simp only [RProg.runI] at h
    split at h
    · rename_i sz' v is'
      split at h
      · rename_i hc
        obtain ⟨rfl, rfl⟩ := hc
        have := ih _ _ _ _ h
        rw [flat_cons]
        simp only [RProg.runF]
        split
        · rename_i h4
          rw [flatItem_unp sz h4, List.append_assoc, takeSingles_map]
          exact this
        · split
          · rename_i h4 h1
            obtain ⟨rfl, h1⟩ := h1
            obtain ⟨b, rfl⟩ : ∃ b, v = [b] := by
              match v, h1 with
              | [b], _ => exact ⟨b, rfl⟩
            have e1 : flatItem (.arr 1 [b]) = [.arr 4 [b % 256 * 2 ^ 24]] := rfl
            rw [e1]
            rw [show [Item.arr 4 [b % 256 * 2 ^ 24]] ++ flat is' ++ is = .arr 4 [b % 256 * 2 ^ 24] :: (flat is' ++ is) from rfl, takeByte_byte]
            exact this
          · rename_i h4 h1
            have e1 : flatItem (.arr sz v) = [.arr sz v] := by
              rcases flatItem_arr sz v with ⟨h, _⟩ | ⟨b, rfl, rfl, _⟩ | ⟨_, _, e⟩
              · exact absurd h h4
              · exact absurd ⟨rfl, rfl⟩ h1
              · exact e
            rw [e1]
            simp only [List.cons_append, List.nil_append, and_self, if_true]
            exact this
      · cases h
    · cases h
  | ptr k ih =>
    simp only [RProg.runI] at h
    split at h
    · rename_i a' is'
      exact ih _ _ _ _ h
    · cases h
  | tag o k ih =>
    simp only [RProg.runI] at h
    split at h
    · rename_i a' is'
      exact ih _ _ _ h
    · cases h
  | new k ih => exact ih _ _ _ _ h

theorem runF_rStr (s : Str) (h : small s.length) : rStr.runF φ ⟨flat (wStr s) ++ is, n, rg⟩ = some (s, ⟨is, n, rg⟩) := by
  have h := runI_rStr φ s h [] n rg
  rw [List.append_nil] at h
  exact runF_lift φ rStr _ _ _ _ _ _ _ h is

theorem runF_rVec32 (vs : List W32) (h : small vs.length) : (rVec32 []).runF φ ⟨flat (wVec32 vs) ++ is, n, rg⟩ = some (vs, ⟨is, n, rg⟩) := by
  have h := runI_rVec32 φ [] vs h [] n rg
  rw [List.append_nil] at h
  have h := runF_lift φ (rVec32 []) _ _ _ _ _ _ _ h is
  rw [h]
  cases vs <;> rfl

theorem runI_rVec16 (vs : List W16) (h : small vs.length) :
    (rVec16 []).runI φ ⟨wVec16 vs ++ is, n, rg⟩ = some (vs, ⟨is, n, rg⟩) := by
  simp only [rVec16, wVec16]
  rw [List.append_assoc, runI_bind, runI_r32]
  simp only [Option.bind_some]
  cases vs with
  | nil => rfl
  | cons v vs =>
    rw [if_pos ((len_gt _ h).2 (by simp))]
    rw [if_neg (by simp)]
    have hc := len_toNat _ h
    simp only [RProg.runI, List.cons_append, List.nil_append, List.length_map, hc, and_self, if_true, List.map_map]
    congr 2
    clear hc h
    generalize v :: vs = l
    induction l with
    | nil => rfl
    | cons v l ih =>
      have : v.toNat % 256 ^ 2 = v.toNat := Nat.mod_eq_of_lt v.isLt
      simp only [List.map_cons, Function.comp_apply, ih, this, BitVec.ofNat_toNat, BitVec.setWidth_eq]

theorem runF_rVec16 (vs : List W16) (h : small vs.length) : (rVec16 []).runF φ ⟨flat (wVec16 vs) ++ is, n, rg⟩ = some (vs, ⟨is, n, rg⟩) := by
  have h := runI_rVec16 φ [] n rg vs h
  rw [List.append_nil] at h
  exact runF_lift φ (rVec16 []) _ _ _ _ _ _ _ h is

theorem runF_params (p : Params) (hp : ParamsOk p) : (Params.read {}).runF φ ⟨flat p.write ++ is, n, rg⟩ = some ({ p with readOnly := false }, ⟨is, n, rg⟩) := by
  have h := runI_params φ p hp false [] n rg
  rw [List.append_nil] at h
  exact runF_lift φ (Params.read {}) _ _ _ _ _ _ _ h is

theorem runF_asFailure {α : Type} (p : RProg α) (s : ISt) : p.asFailure.runF φ s = p.runF φ s := by
  induction p generalizing s with
  | ret x => rfl
  | throw e => simp only [RProg.asFailure, RProg.runF]
  | arr sz c k ih =>
    simp only [RProg.asFailure, RProg.runF]
    split
    · split
      · exact ih _ _
      · rfl
    · split
      · split
        · exact ih _ _
        · rfl
      · split
        · split
          · exact ih _ _
          · rfl
        · rfl
  | ptr k ih =>
    simp only [RProg.asFailure, RProg.runF]
    split
    · exact ih _ _
    · rfl
  | tag o k ih =>
    simp only [RProg.asFailure, RProg.runF]
    split
    · exact ih _
    · rfl
  | new k ih => exact ih _ _

end Lcio
