import Verif.Lcio.ParamsLemmas
import Verif.Lcio.RunEventLemmas
import Verif.Props.Blocks
/-
Abstract execution of the run header, event header, index and random access serialisations.
-/
namespace Lcio
open Sio Spec

theorem runI_checkVersion (φ : Nat → Nat) (s : ISt) : (checkVersion blockVersion).runI φ s = some ((), s) := by
  have : ¬ ((majorVersion blockVersion).toNat < 1 ∧ (minorVersion blockVersion).toNat < 8) := by decide
  unfold checkVersion
  rw [if_neg this]; rfl

theorem runI_map {α β : Type} (φ : Nat → Nat) (p : RProg α) (f : α → β) (s : ISt) :
    (f <$> p).runI φ s = (p.runI φ s).map fun x => (f x.1, x.2) := by
  have : (f <$> p) = p >>= fun a => .ret (f a) := rfl
  rw [this, runI_bind]
  cases p.runI φ s <;> rfl

theorem newer_1_1 : newer blockVersion 1 1 = true := by decide

theorem storeLoad_plain {α : Type} (name buf : Str) (opts : W32) (b : WBlock) (d : RBlock α) (next : Nat) (a : α) (hname : d.name = b.name)
    (hw : Writable name [b]) (h : ∀ φ n, (d.read b.version).runI φ ⟨b.items, n, []⟩ = some (a, ⟨[], n, []⟩)) :
    storeLoad name buf opts [b] [d] next = .ok [(b.name, a)] := by
  have hd : ∀ φ, decodeAll φ [d] [b] next = some ⟨[(b.name, a)], next, [], ptrsOf b.items⟩ := by
    intro φ
    simp only [decodeAll, List.find?_cons, hname, BEq.rfl, h, Option.map_some, List.map_nil, List.nil_append, List.append_nil]
    simp [tagsOf]
  obtain ⟨info, bytes, φ, r, ρ, dev, h1, h2, h3, _⟩ := Props.C09_object_graph name buf [b] opts [d] next hw (fun φ => by rw [hd φ]; rfl)
  rw [hd] at h2
  cases h2
  unfold storeLoad
  rw [h1]; simp only; rw [h3]

theorem runI_runHeader (φ : Nat → Nat) (h : RunHeader) (hok : RunHeaderOk h) (is : List Item) (n : Nat) (rg : List (Nat × Nat)) :
    (RunHeader.read blockVersion).runI φ ⟨h.write ++ is, n, rg⟩ = some ({ h with params := { h.params with readOnly := false } }, ⟨is, n, rg⟩) := by
  unfold RunHeader.read RunHeader.write
  simp only [List.append_assoc]
  rw [runI_bind, runI_checkVersion]; simp only [Option.bind_some]
  rw [runI_bind, runI_r32]; simp only [Option.bind_some]
  rw [runI_bind, runI_rStr _ _ hok.det]; simp only [Option.bind_some]
  rw [runI_bind, runI_rStr _ _ hok.descr]; simp only [Option.bind_some]
  rw [runI_bind, runI_r32]; simp only [Option.bind_some]
  rw [if_neg (len_pos _ hok.count), len_toNat _ hok.count, runI_bind,
    runI_rRepeat' φ rStr wStr id h.subdets (fun s hs is n rg => runI_rStr φ s (hok.subdets s hs) is n rg) _ rfl]
  simp only [Option.bind_some]
  rw [if_pos newer_1_1, runI_bind, runI_params φ h.params hok.params false]
  simp [RProg.runI, pure]

/-! ## Event header -/

theorem rfind_none (pat s : Str) (h : ¬ occursIn pat s) : rfind pat s = none := by
  induction s with
  | nil =>
    unfold rfind
    rw [if_neg]
    intro hp
    rw [List.isEmpty_iff] at hp
    exact h ⟨[], [], by simp [hp]⟩
  | cons c cs ih =>
    unfold rfind
    rw [ih (fun ⟨a, b, hab⟩ => h ⟨c :: a, b, by simp [hab]⟩)]
    simp only
    rw [if_neg]
    intro hp
    rw [List.isPrefixOf_iff_prefix] at hp
    obtain ⟨t, ht⟩ := hp
    exact h ⟨[], t, by simp [ht]⟩

theorem rfind_le (pat s : Str) (i : Nat) (h : rfind pat s = some i) : i + pat.length ≤ s.length := by
  induction s generalizing i with
  | nil =>
    unfold rfind at h
    split at h
    · rename_i hp; rw [List.isEmpty_iff] at hp; cases h; simp [hp]
    · cases h
  | cons c cs ih =>
    unfold rfind at h
    split at h
    · rename_i j hj; cases h; have := ih j hj; simp; omega
    · split at h
      · rename_i hp; rw [List.isPrefixOf_iff_prefix] at hp; cases h; simpa using hp.length_le
      · cases h

theorem rfind_append (pat s : Str) (hp : pat ≠ []) : rfind pat (s ++ pat) = some s.length := by
  induction s with
  | nil =>
    cases pat with
    | nil => exact absurd rfl hp
    | cons c cs =>
      simp only [List.nil_append, List.length_nil]
      unfold rfind
      split
      · rename_i i hi
        have := rfind_le _ _ _ hi
        simp at this
        omega
      · rw [if_pos (by rw [List.isPrefixOf_iff_prefix]; exact List.prefix_refl _)]
  | cons c cs ih =>
    rw [List.cons_append]
    unfold rfind
    rw [ih]; rfl

/-- The type name that is read back. -/
theorem stripPostfix_eq (t : Str) (sub : Bool) (h : sub = false → ¬ occursIn (str "_References") t) :
    stripPostfix (if sub then t ++ subsetPostfix else t) = t := by
  unfold stripPostfix
  cases sub with
  | true => rw [if_pos rfl, rfind_append _ _ (by decide)]; simp
  | false => rw [if_neg (by simp), show subsetPostfix = str "_References" from rfl, rfind_none _ _ (h rfl)]

theorem runI_readCols (φ : Nat → Nat) (rd : List Str) (l : List (Str × ColHead)) (m : List (Str × ColHead)) (is : List Item) (n : Nat) (rg : List (Nat × Nat))
    (ho : Ordered strLt (m ++ l.map fun c => (c.1, ⟨stripPostfix (if c.2.isSubset then c.2.type ++ subsetPostfix else c.2.type), 0⟩)))
    (hn : ∀ c ∈ l, validate c.1 = true ∧ c.1.length < 2 ^ 31) (ht : ∀ c ∈ l, c.2.type.length + 11 < 2 ^ 31) :
    (readCols rd l.length m).runI φ
      ⟨l.flatMap (fun c => wStr c.1 ++ wStr (if c.2.isSubset then c.2.type ++ subsetPostfix else c.2.type)) ++ is, n, rg⟩ =
    some (m ++ (l.filter fun c => rd.isEmpty || rd.contains c.1).map
      (fun c => (c.1, ⟨stripPostfix (if c.2.isSubset then c.2.type ++ subsetPostfix else c.2.type), 0⟩)), ⟨is, n, rg⟩) := by
  induction l generalizing m with
  | nil => simp [readCols, RProg.runI]
  | cons c l ih =>
    have hlen : (if c.2.isSubset then c.2.type ++ subsetPostfix else c.2.type).length < 2 ^ 31 := by
      have := ht c (by simp)
      split
      · rw [List.length_append, show subsetPostfix.length = 11 from rfl]; exact this
      · omega
    rw [List.length_cons, readCols, List.flatMap_cons]
    simp only [List.append_assoc]
    rw [runI_bind, runI_rStr _ _ (hn c (by simp)).2]; simp only [Option.bind_some]
    rw [runI_bind, runI_rStr _ _ hlen]; simp only [Option.bind_some]
    have hafter : ∀ e ∈ m, strLt e.1 c.1 = true := by
      intro e he
      have := (List.pairwise_append.1 ho).2.2 e he (c.1, ⟨stripPostfix (if c.2.isSubset then c.2.type ++ subsetPostfix else c.2.type), 0⟩) (by simp)
      exact this
    rw [List.filter_cons]
    split
    · have hadd : addCol m c.1 ⟨stripPostfix (if c.2.isSubset then c.2.type ++ subsetPostfix else c.2.type), 0⟩ =
          .ok (m ++ [(c.1, ⟨stripPostfix (if c.2.isSubset then c.2.type ++ subsetPostfix else c.2.type), 0⟩)]) := by
        unfold addCol
        rw [(hn c (by simp)).1, if_neg (by simp)]
        have : omFind strLt c.1 m = none := by
          rw [omFind_str, Option.map_eq_none_iff, List.find?_eq_none]
          intro e he heq
          have := hafter e he
          rw [beq_iff_eq] at heq
          rw [heq, strLt_irrefl] at this; cases this
        rw [this]
        simp only
        rw [omAssign_after strWeak _ _ _ hafter]
      rw [hadd]
      simp only
      rw [ih _ (by simpa using ho) (fun x hx => hn x (by simp [hx])) (fun x hx => ht x (by simp [hx]))]
      simp
    · refine ih _ ?_ (fun x hx => hn x (by simp [hx])) (fun x hx => ht x (by simp [hx]))
      unfold Ordered at ho ⊢
      refine ho.sublist ?_
      exact List.Sublist.append_left (by simp) _

theorem write_cols (only : List Str) (cols : List (Str × ColHead)) (w : Str × ColHead → List Item) :
    (cols.flatMap fun c => if c.2.isTransient then [] else if notSelected only c.1 then [] else w c) =
      (cols.filter fun c => !c.2.flag.getLsbD 16 && (only.isEmpty || only.contains c.1)).flatMap w := by
  induction cols with
  | nil => rfl
  | cons c cols ih =>
    rw [List.flatMap_cons, ih, List.filter_cons]
    have key : ∀ (x y z : Bool) (L : List Item),
        (if x = true then [] else if (!y && !z) = true then [] else L) = if (!x && (y || z)) = true then L else [] := by
      intro x y z L
      cases x <;> cases y <;> cases z <;> rfl
    have key2 : ∀ (b : Bool) (F : List (Str × ColHead)), (if b = true then c :: F else F).flatMap w = (if b = true then w c else []) ++ F.flatMap w := by
      intro b F
      cases b <;> rfl
    rw [key2]
    congr 1
    exact key _ _ _ _

theorem runI_eventHeader (φ : Nat → Nat) (only rd : List Str) (e : EventHeader) (hok : EventHeaderOk e)
    (hr : ∀ c ∈ stored only e, c.2.flag.getLsbD 18 = false → ¬ occursIn (str "_References") c.2.type)
    (is : List Item) (n : Nat) (rg : List (Nat × Nat)) :
    (EventHeader.read rd blockVersion).runI φ ⟨e.write only ++ is, n, rg⟩ =
      some ({ e with params := { e.params with readOnly := false },
                     cols := ((stored only e).filter fun c => rd.isEmpty || rd.contains c.1).map fun c => (c.1, ⟨c.2.type, 0⟩) }, ⟨is, n, rg⟩) := by
  have hc : (e.cols.countP fun c => !notSelected only c.1 && !c.2.isTransient) = (stored only e).length := by
    rw [List.countP_eq_length_filter]
    unfold stored
    congr 2
    funext c
    simp only [ColHead.isTransient, notSelected]
    generalize c.2.flag.getLsbD 16 = x
    generalize only.isEmpty = y
    generalize only.contains c.1 = z
    cases x <;> cases y <;> cases z <;> simp
  have hsub : (stored only e).Sublist e.cols := List.filter_sublist
  have hlen : (stored only e).length < 2 ^ 31 := by have := hok.count; have := hsub.length_le; omega
  have hstrip : ∀ c ∈ stored only e, stripPostfix (if c.2.isSubset then c.2.type ++ subsetPostfix else c.2.type) = c.2.type :=
    fun c hc => stripPostfix_eq _ _ (hr c hc)
  unfold EventHeader.read EventHeader.write
  simp only [List.append_assoc, hc]
  rw [write_cols only e.cols (fun c => wStr c.1 ++ wStr (if c.2.isSubset then c.2.type ++ subsetPostfix else c.2.type))]
  rw [runI_bind, runI_checkVersion]; simp only [Option.bind_some]
  rw [runI_bind, runI_r32]; simp only [Option.bind_some]
  rw [runI_bind, runI_r32]; simp only [Option.bind_some]
  rw [runI_bind, runI_r64]; simp only [Option.bind_some]
  rw [runI_bind, runI_rStr _ _ hok.det]; simp only [Option.bind_some]
  rw [runI_bind, runI_r32]; simp only [Option.bind_some]
  rw [if_neg (len_pos _ hlen), len_toNat _ hlen, runI_bind]
  have := runI_readCols φ rd (stored only e) [] (e.params.write ++ is) n rg (by
      rw [List.nil_append]
      have ho : Ordered strLt (stored only e) := hok.ordered.sublist hsub
      unfold Ordered at ho ⊢
      rw [List.pairwise_map]; exact ho)
    (fun c hc => hok.names c (hsub.subset hc)) (fun c hc => hok.types c (hsub.subset hc))
  unfold stored at this hstrip ⊢
  rw [this]
  simp only [Option.bind_some, List.nil_append]
  rw [if_pos newer_1_1, runI_bind, runI_params φ e.params hok.params false]
  simp only [Option.bind_some, RProg.runI, pure, Option.some.injEq, Prod.mk.injEq, and_true, EventHeader.mk.injEq, true_and]
  apply List.map_congr_left
  intro c hc
  rw [hstrip c (List.mem_of_mem_filter hc)]

/-! ## Random access record -/

theorem runI_access (φ : Nat → Nat) (a : RandomAccess) (is : List Item) (n : Nat) (rg : List (Nat × Nat)) :
    (RandomAccess.read blockVersion).runI φ ⟨a.write ++ is, n, rg⟩ = some (a, ⟨is, n, rg⟩) := by
  unfold RandomAccess.read RandomAccess.write
  simp only [List.append_assoc]
  rw [runI_bind, runI_checkVersion]; simp only [Option.bind_some]
  iterate 7 (rw [runI_bind, runI_r32]; simp only [Option.bind_some])
  iterate 4 (rw [runI_bind, runI_r64]; simp only [Option.bind_some])
  rw [runI_bind, runI_r32]
  rfl

/-! ## Index -/

theorem control_bits (a b : Bool) :
    ((if a then (1 : W32) else 0) ||| (if b then (2 : W32) else 0)).getLsbD 0 = a ∧
    ((if a then (1 : W32) else 0) ||| (if b then (2 : W32) else 0)).getLsbD 1 = b ∧
    ((if a then (1 : W32) else 0) ||| (if b then (2 : W32) else 0)).getLsbD 2 = false := by
  cases a <;> cases b <;> decide

theorem runI_index (φ : Nat → Nat) (m : RunEventMap) (hlen : m.map.length < 2 ^ 31)
    (hov : m.oneRun = false → ∀ e ∈ m.map, BitVec.ssubOverflow e.1.run m.minRunEvent.run = false) (is : List Item) (n : Nat) (rg : List (Nat × Nat)) :
    (readIndex blockVersion).runI φ ⟨m.write ++ is, n, rg⟩ =
      some (m.map.map (indexEntry m.oneRun m.longOffset m.minRunEvent.run (m.getPosition m.minRunEvent)), ⟨is, n, rg⟩) := by
  unfold readIndex RunEventMap.write
  simp only [List.append_assoc]
  rw [runI_bind, runI_checkVersion]; simp only [Option.bind_some]
  rw [runI_bind, runI_r32]; simp only [Option.bind_some]
  obtain ⟨c0, c1, c2⟩ := control_bits m.oneRun m.longOffset
  rw [c2, if_neg (by simp), c0, c1]
  rw [runI_bind, runI_r32]; simp only [Option.bind_some]
  rw [runI_bind, runI_r64]; simp only [Option.bind_some]
  rw [runI_bind, runI_r32]; simp only [Option.bind_some]
  rw [if_neg (len_pos _ hlen), len_toNat _ hlen]
  refine runI_rRepeat' φ _ _ _ m.map ?_ _ rfl is n rg
  intro e he is n rg
  unfold readIndexEntry indexEntry
  cases h1 : m.oneRun with
  | true =>
    simp only [if_true, List.nil_append]
    rw [runI_bind]; simp only [RProg.runI, Option.bind_some]
    rw [List.append_assoc, runI_bind, runI_r32]; simp only [Option.bind_some]
    cases h2 : m.longOffset with
    | true =>
      simp only [if_true]
      rw [runI_bind, runI_r64]
      simp only [RProg.runI, pure, Option.bind_some]
      rw [BitVec.sub_add_cancel]
    | false =>
      simp only [Bool.false_eq_true, if_false]
      rw [runI_bind, runI_map, runI_r32]
      simp only [RProg.runI, pure, Option.bind_some, Option.map_some]
      rw [BitVec.add_comm]
  | false =>
    rw [hov h1 e he]
    simp only [Bool.false_eq_true, if_false, List.append_assoc]
    rw [runI_bind, runI_map, runI_r32]; simp only [Option.bind_some, Option.map_some]
    rw [runI_bind, runI_r32]; simp only [Option.bind_some]
    rw [BitVec.add_comm m.minRunEvent.run, BitVec.sub_add_cancel]
    cases h2 : m.longOffset with
    | true =>
      simp only [if_true]
      rw [runI_bind, runI_r64]
      simp only [RProg.runI, pure, Option.bind_some]
      rw [BitVec.sub_add_cancel]
    | false =>
      simp only [Bool.false_eq_true, if_false]
      rw [runI_bind, runI_map, runI_r32]
      simp only [RProg.runI, pure, Option.bind_some, Option.map_some]
      rw [BitVec.add_comm (m.getPosition _)]

end Lcio
