import Verif.Lcio.HeaderLemmas
/-
Items without references that can be written, and rebuilding a run and event map from an index.
-/
namespace Lcio
open Sio Spec

/-- No references, and everything can be written. -/
def Plain (is : List Item) : Prop := ∀ i ∈ is, isRef i = false ∧ fits i

theorem Plain.append {a b : List Item} (ha : Plain a) (hb : Plain b) : Plain (a ++ b) := by
  intro i hi
  rcases List.mem_append.1 hi with h | h
  · exact ha i h
  · exact hb i h

theorem Plain.flatMap {α : Type} (l : List α) (w : α → List Item) (h : ∀ a ∈ l, Plain (w a)) : Plain (l.flatMap w) := by
  intro i hi
  obtain ⟨a, ha, hi⟩ := List.mem_flatMap.1 hi
  exact h a ha i hi

theorem plain_w32 (v : W32) : Plain (w32 v) := by intro i hi; simp only [w32, List.mem_singleton] at hi; subst hi; simp [isRef, fits]
theorem plain_w64 (v : W64) : Plain (w64 v) := by intro i hi; simp only [w64, List.mem_singleton] at hi; subst hi; simp [isRef, fits]
theorem plain_wStr (s : Str) (hs : s.length < 2 ^ 31) : Plain (wStr s) := by
  unfold wStr
  rw [if_pos hs]
  refine (plain_w32 _).append ?_
  intro i hi
  simp only [w8s, List.mem_singleton] at hi; subst hi
  refine ⟨rfl, ?_⟩
  simp only [fits, List.length_map]; omega

theorem plain_writeMap {α : Type} (w : α → List Item) (ok : α → Prop) (m : VecMap α) (hm : MapOk ok m) (hw : ∀ v, ok v → Plain (w v)) :
    Plain (writeMap w m) := by
  rw [writeMap_eq w m hm.ordered]
  refine (plain_w32 _).append (Plain.flatMap _ _ fun e he => ?_)
  exact ((plain_wStr _ (hm.key e he)).append (plain_w32 _)).append (Plain.flatMap _ _ fun v hv => hw v (hm.ok e he v hv))

theorem plain_params (p : Params) (hp : ParamsOk p) : Plain p.write :=
  ((plain_writeMap _ _ _ hp.ints fun _ _ => plain_w32 _).append (plain_writeMap _ _ _ hp.floats fun _ _ => plain_w32 _)).append
    (plain_writeMap _ _ _ hp.strs fun _ h => plain_wStr _ h)

/-! ## Index -/

theorem signExtend_setWidth (x : W64) (h1 : -2147483648 ≤ x.toInt) (h2 : x.toInt < 2147483648) : (x.setWidth 32).signExtend 64 = x := by
  apply BitVec.eq_of_toInt_eq
  rw [BitVec.toInt_signExtend_of_le (by decide), BitVec.toInt_setWidth]
  have hx := BitVec.toInt_eq_toNat_cond x
  have hl := x.isLt
  rw [Int.bmod_def]
  split at hx <;> split <;> omega

theorem addAll_inv (es : List (RunEvent × W64)) (m : RunEventMap) (l : List (RunEvent × W64)) (h : MapInv m l) : MapInv (m.addAll es) (l ++ es) := by
  unfold RunEventMap.addAll
  induction es generalizing m l with
  | nil => simpa using h
  | cons e es ih =>
    have := ih (m.add e.1 e.2) (l ++ [(e.1, e.2)]) (h.add e.1 e.2)
    simpa using this

theorem addAll_map (es : List (RunEvent × W64)) (m : RunEventMap) : (m.addAll es).map = es.foldl (fun m e => (omAssign RunEvent.lt e.1 e.2 m).1) m.map := by
  unfold RunEventMap.addAll
  induction es generalizing m with
  | nil => rfl
  | cons e es ih =>
    rw [List.foldl_cons, List.foldl_cons, ih]
    congr 1
    unfold RunEventMap.add
    rw [RunEvent.ofLong_toLong]
    generalize omAssign RunEvent.lt e.1 e.2 m.map = p
    obtain ⟨p1, p2⟩ := p
    cases p2
    · rfl
    · simp only [if_true]; split <;> rfl

/-- A map is rebuilt from its entries. -/
theorem addAll_self (m : RunEventMap) (l : List (RunEvent × W64)) (h : MapInv m l) : ({} : RunEventMap).addAll m.map = m := by
  have h1 := addAll_inv m.map {} [] MapInv.empty
  have h2 := addAll_map m.map {}
  rw [foldl_assign RunEvent.strictWeak m.map [] (by simpa using h.ordered)] at h2
  have e1 := h1.runs
  have e2 := h1.evts
  rw [h2] at e1 e2
  have e3 := h.runs
  have e4 := h.evts
  simp only [List.nil_append] at e1 e2 h2
  generalize ({} : RunEventMap).addAll m.map = x at *
  obtain ⟨a, b, c⟩ := x
  obtain ⟨a', b', c'⟩ := m
  simp only at *
  subst h2
  rw [e1, e2, e3, e4]

theorem itemLen_one4 (v : Nat) : itemLen (.arr 4 [v]) = 4 := itemLen_word v
theorem itemLen_one8 (v : Nat) : itemLen (.arr 8 [v]) = 8 := by
  simp [itemLen, itemBytes, wireArray_length, padding]

theorem access_items_length (a : RandomAccess) : (bytesOf a.write).length = 64 := by
  rw [bytesOf_length]
  simp only [RandomAccess.write, w32, w64, List.cons_append, List.nil_append, List.map_cons, List.map_nil, List.sum_cons, List.sum_nil,
    itemLen_one4, itemLen_one8]
  decide

theorem access_blockLen (a : RandomAccess) : blockLen a.block = 96 := by
  unfold blockLen
  rw [show a.block.items = a.write from rfl, access_items_length]
  show 16 + accessName.length + padding accessName.length + 64 = 96
  decide

theorem access_dataLen (a : RandomAccess) : dataLen [a.block] = 96 := by
  unfold dataLen
  rw [show blocksItems [a.block] = blockItems a.block ++ [] from rfl, List.append_nil, blockItems_length, access_blockLen]

theorem record_length (name : Str) (opts : W32) (bs : List WBlock) : (bytesOf (recordItems name opts bs)).length = headerLen name + dataLen bs := by
  unfold recordItems
  rw [bytesOf_append, List.length_append, bytesOf_length]
  simp only [headerItems, List.map_cons, List.map_nil, List.sum_cons, List.sum_nil, itemLen_word, itemLen_chars, headerLen, dataLen]
  omega

theorem access_writable (a : RandomAccess) : Writable accessName [a.block] := by
  refine ⟨by decide, ?_, ?_⟩
  · intro b hb
    rw [List.mem_singleton] at hb
    subst hb
    refine ⟨?_, ?_, ?_⟩
    · show accessName.length + 3 < 2 ^ 32
      decide
    · intro i hi
      simp only [RandomAccess.block, RandomAccess.write, w32, w64, List.cons_append, List.nil_append, List.mem_cons, List.not_mem_nil, or_false] at hi
      rcases hi with rfl | rfl | rfl | rfl | rfl | rfl | rfl | rfl | rfl | rfl | rfl | rfl <;> simp [fits]
    · rw [access_blockLen]; decide
  · rw [access_dataLen]; decide

end Lcio
