import Verif.Spec.Store
import Verif.Sio.TypedLemmas
/-
String order, ordered maps built in order, and abstract execution of the parameter serialisation.
-/
namespace Lcio
open Sio Spec

theorem strLt_irrefl (a : Str) : strLt a a = false := by
  induction a with
  | nil => rfl
  | cons x a ih => simp [strLt, ih]

theorem strLt_trans (a b c : Str) (h1 : strLt a b = true) (h2 : strLt b c = true) : strLt a c = true := by
  induction a generalizing b c with
  | nil =>
    cases b with
    | nil => simp [strLt] at h1
    | cons y b =>
      cases c with
      | nil => simp [strLt] at h2
      | cons z c => rfl
  | cons x a ih =>
    cases b with
    | nil => simp [strLt] at h1
    | cons y b =>
      cases c with
      | nil => simp [strLt] at h2
      | cons z c =>
        simp only [strLt] at h1 h2 ⊢
        split at h1
        · rename_i hxy
          split at h2
          · rename_i hyz; rw [if_pos (UInt8.lt_trans hxy hyz)]
          · rename_i hyz
            split at h2
            · cases h2
            · rename_i hzy
              have : y = z := UInt8.le_antisymm (UInt8.not_lt.1 hzy) (UInt8.not_lt.1 hyz)
              rw [← this, if_pos hxy]
        · rename_i hxy
          split at h1
          · cases h1
          · rename_i hyx
            have hxy' : x = y := UInt8.le_antisymm (UInt8.not_lt.1 hyx) (UInt8.not_lt.1 hxy)
            subst hxy'
            split at h2
            · rename_i hxz; rw [if_pos hxz]
            · rename_i hxz
              split at h2
              · cases h2
              · rename_i hzx
                rw [if_neg hxz, if_neg hzx]
                exact ih _ _ h1 h2

theorem strLt_total (a b : Str) (h1 : strLt a b = false) (h2 : strLt b a = false) : a = b := by
  induction a generalizing b with
  | nil =>
    cases b with
    | nil => rfl
    | cons y b => simp [strLt] at h1
  | cons x a ih =>
    cases b with
    | nil => simp [strLt] at h2
    | cons y b =>
      simp only [strLt] at h1 h2
      split at h1
      · cases h1
      · rename_i hxy
        split at h1
        · rename_i hyx; rw [if_pos hyx] at h2; cases h2
        · rename_i hyx
          rw [if_neg hyx, if_neg hxy] at h2
          rw [ih b h1 h2, UInt8.le_antisymm (UInt8.not_lt.1 hyx) (UInt8.not_lt.1 hxy)]

theorem eqv_str (a b : Str) : eqv strLt a b = true ↔ a = b := by
  unfold eqv
  constructor
  · intro h
    simp only [Bool.and_eq_true, Bool.not_eq_true'] at h
    exact strLt_total a b h.1 h.2
  · rintro rfl
    simp [strLt_irrefl]

theorem strWeak : StrictWeak strLt := by
  refine ⟨strLt_irrefl, strLt_trans, ?_⟩
  intro a b c h1 h2
  rw [eqv_str] at h1 h2 ⊢
  rw [h1, h2]

/-- Looking up in a map with string keys is looking for the key. -/
theorem omFind_str {V : Type} (k : Str) (m : List (Str × V)) : omFind strLt k m = (m.find? fun e => e.1 == k).map (·.2) := by
  unfold omFind
  congr 2
  funext e
  rw [Bool.eq_iff_iff, eqv_str]; simp

theorem find_append {V : Type} {K : Type} {lt : K → K → Bool} (h : StrictWeak lt) (m₁ m₂ : List (K × V)) (e : K × V) (ho : Ordered lt (m₁ ++ e :: m₂)) :
    omFind lt e.1 (m₁ ++ e :: m₂) = some e.2 := by
  unfold omFind
  have hnone : ∀ x ∈ m₁, eqv lt x.1 e.1 = false := by
    intro x hx
    have := (List.pairwise_append.1 ho).2.2 x hx e (by simp)
    simp [eqv, this]
  rw [List.find?_append, List.find?_eq_none.2 (by intro x hx; rw [hnone x hx]; simp), List.find?_cons, eqv_refl h]
  rfl

theorem omFind_mem {V : Type} {K : Type} {lt : K → K → Bool} (h : StrictWeak lt) (m : List (K × V)) (ho : Ordered lt m) (e : K × V) (he : e ∈ m) :
    omFind lt e.1 m = some e.2 := by
  obtain ⟨m₁, m₂, rfl⟩ := List.append_of_mem he
  exact find_append h _ _ _ ho

theorem omAssign_after {V : Type} {K : Type} {lt : K → K → Bool} (h : StrictWeak lt) (k : K) (v : V) (m : List (K × V)) (hm : ∀ e ∈ m, lt e.1 k = true) :
    omAssign lt k v m = (m ++ [(k, v)], true) := by
  induction m with
  | nil => rfl
  | cons e m ih =>
    obtain ⟨a, b⟩ := e
    have h1 := hm (a, b) (by simp)
    simp only at h1
    unfold omAssign
    rw [if_neg (by rw [h.asymm _ _ h1]; simp), if_pos h1, ih (fun e he => hm e (by simp [he]))]
    rfl

/-- Putting the entries of an ordered map one by one into an empty map gives the map. -/
theorem foldl_assign {V : Type} {K : Type} {lt : K → K → Bool} (h : StrictWeak lt) (l m : List (K × V)) (ho : Ordered lt (m ++ l)) :
    l.foldl (fun m e => (omAssign lt e.1 e.2 m).1) m = m ++ l := by
  induction l generalizing m with
  | nil => simp
  | cons e l ih =>
    rw [List.foldl_cons, omAssign_after h _ _ _ (fun x hx => (List.pairwise_append.1 ho).2.2 x hx e (by simp)), ih]
    · simp
    · simpa using ho

/-- The entries that `writeMap` writes. -/
theorem writeMap_eq {α : Type} (w : α → List Item) (m : VecMap α) (ho : Ordered strLt m) :
    writeMap w m = w32 (BitVec.ofNat 32 m.length) ++ m.flatMap fun e => wStr e.1 ++ w32 (BitVec.ofNat 32 e.2.length) ++ e.2.flatMap w := by
  unfold writeMap getKeys
  simp only [List.nil_append, List.length_map]
  congr 1
  have : ∀ l : VecMap α, (∀ e ∈ l, e ∈ m) →
      (l.map (·.1)).flatMap (fun k => wStr k ++ w32 (BitVec.ofNat 32 (getVals m k []).length) ++ (getVals m k []).flatMap w) =
      l.flatMap fun e => wStr e.1 ++ w32 (BitVec.ofNat 32 e.2.length) ++ e.2.flatMap w := by
    intro l hl
    induction l with
    | nil => rfl
    | cons e l ih =>
      simp only [List.map_cons, List.flatMap_cons]
      rw [ih (fun x hx => hl x (by simp [hx]))]
      have : getVals m e.1 [] = e.2 := by
        unfold getVals
        rw [omFind_mem strWeak m ho e (hl e (by simp))]; rfl
      rw [this]
  exact this m (fun e he => he)

theorem runI_readMap {α : Type} (φ : Nat → Nat) (w : α → List Item) (r : RProg α) (ok : α → Prop)
    (hr : ∀ v, ok v → ∀ is n rg, r.runI φ ⟨w v ++ is, n, rg⟩ = some (v, ⟨is, n, rg⟩))
    (m : VecMap α) (hm : MapOk ok m) (is : List Item) (n : Nat) (rg : List (Nat × Nat)) :
    (readMap r []).runI φ ⟨writeMap w m ++ is, n, rg⟩ = some (m, ⟨is, n, rg⟩) := by
  rw [writeMap_eq w m hm.ordered]
  unfold readMap
  rw [List.append_assoc, runI_bind, runI_r32]
  simp only [Option.bind_some]
  rw [if_neg (len_pos _ hm.count), len_toNat _ hm.count, runI_bind]
  have := runI_rRepeat' φ (readEntry r) (fun e : Str × List α => wStr e.1 ++ w32 (BitVec.ofNat 32 e.2.length) ++ e.2.flatMap w) id m
    (by
      intro e he is n rg
      unfold readEntry
      rw [List.append_assoc, List.append_assoc, runI_bind, runI_rStr _ _ (hm.key e he)]
      simp only [Option.bind_some]
      rw [runI_bind, runI_r32]
      simp only [Option.bind_some]
      rw [if_neg (len_pos _ (hm.vals e he)), runI_bind, len_toNat _ (hm.vals e he)]
      have := runI_rRepeat' φ r w id e.2 (fun v hv is n rg => hr v (hm.ok e he v hv) is n rg) _ rfl is n rg
      rw [this]
      simp [RProg.runI, pure]) m.length rfl is n rg
  rw [this]
  simp only [Option.bind_some, List.map_id]
  have hf := foldl_assign strWeak m [] (by simpa using hm.ordered)
  simp only [List.nil_append] at hf
  simp only [pure, RProg.runI, assignVals]
  rw [hf]

theorem runI_params (φ : Nat → Nat) (p : Params) (hp : ParamsOk p) (ro : Bool) (is : List Item) (n : Nat) (rg : List (Nat × Nat)) :
    (Params.read { readOnly := ro }).runI φ ⟨p.write ++ is, n, rg⟩ = some ({ p with readOnly := ro }, ⟨is, n, rg⟩) := by
  unfold Params.read Params.write
  rw [List.append_assoc, List.append_assoc, runI_bind, runI_readMap φ w32 r32 _ (fun v _ is n rg => runI_r32 φ v is n rg) _ hp.ints]
  simp only [Option.bind_some]
  rw [runI_bind, runI_readMap φ w32 r32 _ (fun v _ is n rg => runI_r32 φ v is n rg) _ hp.floats]
  simp only [Option.bind_some]
  rw [runI_bind, runI_readMap φ wStr rStr _ (fun v hv is n rg => runI_rStr φ v hv is n rg) _ hp.strs]
  rfl

end Lcio
