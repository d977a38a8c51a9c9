import Verif.Lcio.FormatCollections
import Verif.Lcio.HeaderLemmas
/-
Run headers, event headers, indices and random access records that follow the description of the file format.
-/
namespace Lcio
open Sio Spec

theorem encode_runHeader (v : Nat) (h : RunHeader) (hp : ParamsOk h.params) :
    encode v Doc.RunHeader [docRunHeader h] = w32 h.run ++ (wStr h.det ++ (wStr h.descr ++ (w32 (BitVec.ofNat 32 h.subdets.length) ++
      (h.subdets.flatMap wStr ++ wIf (decide (1001 < v)) h.params.write)))) := by
  rw [Doc.RunHeader, encode_data, encode_data, encode_data, encode_data, encode_rep, encode_sub, encode_done, doc_params v h.params hp _ [] visible_nil]
  · descr [docRunHeader, Doc.RunHeader.nActiveSubdetectors, List.length_map]
  all_goals descr [docRunHeader]

theorem encode_eventHeader (v : Nat) (h : EventHeader) (types : List (Str × Str)) (hp : ParamsOk h.params) :
    encode v Doc.EventHeader [docEventHeader h types] = w32 h.run ++ (w32 h.evt ++ (w64 h.time ++ (wStr h.det ++ (w32 (BitVec.ofNat 32 types.length) ++
      (types.flatMap (fun t => wStr t.1 ++ wStr t.2) ++ wIf (decide (1001 < v)) h.params.write))))) := by
  rw [Doc.EventHeader, encode_data, encode_data, encode_data, encode_data, encode_data, encode_rep, encode_sub, encode_done,
    doc_params v h.params hp _ [] visible_nil]
  · descr [docEventHeader, Doc.EventHeader.nBlockNames, List.length_map]
  all_goals descr [docEventHeader]

theorem runHeader_doc (h : RunHeader) (hp : ParamsOk h.params) : encode 2015 Doc.RunHeader [docRunHeader h] = h.write := by
  rw [encode_runHeader _ _ hp]
  simp only [RunHeader.write, List.append_assoc, Nat.reduceLT, decide_true, wIf_true]

theorem stored_count (only : List Str) (e : EventHeader) :
    (e.cols.countP fun c => !notSelected only c.1 && !c.2.isTransient) = (stored only e).length := by
  rw [List.countP_eq_length_filter]
  unfold stored
  congr 2
  funext c
  simp only [ColHead.isTransient, notSelected]
  generalize c.2.flag.getLsbD 16 = x
  generalize only.isEmpty = y
  generalize only.contains c.1 = z
  cases x <;> cases y <;> cases z <;> simp

theorem eventHeader_doc (only : List Str) (e : EventHeader) (hp : ParamsOk e.params) :
    encode 2015 Doc.EventHeader [docEventHeader e (docTypes (stored only e))] = e.write only := by
  rw [encode_eventHeader _ _ _ hp]
  simp only [EventHeader.write, List.append_assoc, Nat.reduceLT, decide_true, wIf_true, stored_count, docTypes, List.length_map, List.flatMap_map,
    write_cols only e.cols (fun c => wStr c.1 ++ wStr (if c.2.isSubset then c.2.type ++ subsetPostfix else c.2.type))]
  rfl

theorem access_doc (a : RandomAccess) : encode 2015 Doc.LCIORandomAccess [docRandomAccess a 0xabcd0088] = a.write := by
  descr [Doc.LCIORandomAccess, docRandomAccess]
  simp only [RandomAccess.write, List.append_assoc]
  rfl

theorem mask_one (b : Bool) : ((if b then (1 : W32) else 0).toNat &&& 1 == 0) = !b := by cases b <;> decide
theorem mask_even (n m : Nat) : (n &&& 2 * m == 1) = false := by
  rw [beq_eq_false_iff_ne]
  intro h
  have := congrArg (Nat.testBit · 0) h
  simp at this
theorem mask_two (w : W32) : (w.toNat &&& 2 == 1) = false := mask_even _ 1
theorem mask_four (w : W32) : (w.toNat &&& 4 == 1) = false := mask_even _ 2

theorem encode_index (v : Nat) (control runMin : W32) (base : W64) (es : List (RunEvent × W64)) :
    encode v Doc.LCIOIndex [docIndex control runMin base es] = w32 control ++ (w32 runMin ++ (w64 base ++ (w32 (BitVec.ofNat 32 es.length) ++
      es.flatMap fun e => wIf (control.toNat &&& 1 == 0) (w32 (e.1.run - runMin)) ++ (w32 e.1.evt ++ w32 ((e.2 - base).setWidth 32))))) := by
  descr [Doc.LCIOIndex, Doc.LCIOIndex.size, docIndex, mask_two, mask_four, List.length_map]

theorem index_doc (m : RunEventMap) (hlong : m.longOffset = false)
    (hov : m.oneRun = false → ∀ e ∈ m.map, BitVec.ssubOverflow e.1.run m.minRunEvent.run = false) :
    encode 2015 Doc.LCIOIndex [docIndex (if m.oneRun then 1 else 0) m.minRunEvent.run (m.getPosition m.minRunEvent) m.map] = m.write := by
  rw [encode_index, mask_one]
  unfold RunEventMap.write
  simp only [hlong, List.append_assoc, Bool.false_eq_true, if_false]
  have h0 : ∀ x : W32, x ||| (0 : W32) = x := fun x => BitVec.or_zero
  rw [h0]
  congr 4
  refine flatMap_mem fun e he => ?_
  cases h1 : m.oneRun
  · rw [hov h1 e he]; rfl
  · rfl

/-! ### Reading -/

theorem runI_anyVersion (φ : Nat → Nat) (vers : W32) (h8 : 8 ≤ docVersion vers) (s : ISt) : (checkVersion vers).runI φ s = some ((), s) := by
  unfold checkVersion
  rw [if_neg]
  · rfl
  · rintro ⟨h1, h2⟩
    unfold docVersion at h8
    omega

theorem runHeader_reads (φ : Nat → Nat) (vers : W32) (hm : (minorVersion vers).toNat < 1000) (h8 : 8 ≤ docVersion vers) (h : RunHeader) (hok : RunHeaderOk h) (is : List Item) (n : Nat)
    (rg : List (Nat × Nat)) :
    (RunHeader.read vers).runI φ ⟨encode (docVersion vers) Doc.RunHeader [docRunHeader h] ++ is, n, rg⟩ =
      some ({ h with params := { (if 1001 < docVersion vers then h.params else {}) with readOnly := false } }, ⟨is, n, rg⟩) := by
  rw [encode_runHeader _ _ hok.params]
  unfold RunHeader.read
  simp only [List.append_assoc]
  rw [runI_bind, runI_anyVersion φ vers h8]; simp only [Option.bind_some]
  rw [runI_bind, runI_r32]; simp only [Option.bind_some]
  rw [runI_bind, runI_rStr _ _ hok.det]; simp only [Option.bind_some]
  rw [runI_bind, runI_rStr _ _ hok.descr]; simp only [Option.bind_some]
  rw [runI_bind, runI_r32]; simp only [Option.bind_some]
  rw [if_neg (len_pos _ hok.count), len_toNat _ hok.count, runI_bind,
    runI_rRepeat' φ rStr wStr id h.subdets (fun s hs is n rg => runI_rStr φ s (hok.subdets s hs) is n rg) _ rfl]
  simp only [Option.bind_some]
  rw [(Vers.of vers hm).n1_1]
  by_cases h1 : 1001 < docVersion vers
  · simp only [decide_eq_true h1, if_true, wIf_true, if_pos h1]
    rw [runI_bind, runI_params φ h.params hok.params false]
    simp [RProg.runI, pure]
  · simp only [decide_eq_false h1, Bool.false_eq_true, if_false, wIf_false, if_neg h1]
    rw [runI_bind]
    simp [RProg.runI, pure]

theorem eventHeader_reads (φ : Nat → Nat) (vers : W32) (hm : (minorVersion vers).toNat < 1000) (h8 : 8 ≤ docVersion vers) (rd : List Str) (e : EventHeader) (hok : EventHeaderOk e)
    (hr : ∀ c ∈ e.cols, c.2.flag.getLsbD 18 = false → ¬ occursIn (str "_References") c.2.type) (is : List Item) (n : Nat) (rg : List (Nat × Nat)) :
    (EventHeader.read rd vers).runI φ ⟨encode (docVersion vers) Doc.EventHeader [docEventHeader e (docTypes e.cols)] ++ is, n, rg⟩ =
      some ({ e with params := { (if 1001 < docVersion vers then e.params else {}) with readOnly := false },
                     cols := (e.cols.filter fun c => rd.isEmpty || rd.contains c.1).map fun c => (c.1, ⟨c.2.type, 0⟩) }, ⟨is, n, rg⟩) := by
  have hlen : e.cols.length < 2 ^ 31 := hok.count
  have hstrip : ∀ c ∈ e.cols, stripPostfix (if c.2.isSubset then c.2.type ++ subsetPostfix else c.2.type) = c.2.type :=
    fun c hc => stripPostfix_eq _ _ (hr c hc)
  have hd : docTypes e.cols = e.cols.map fun c => (c.1, if c.2.isSubset then c.2.type ++ subsetPostfix else c.2.type) := rfl
  rw [encode_eventHeader _ _ _ hok.params, hd]
  unfold EventHeader.read
  simp only [List.append_assoc, List.length_map, List.flatMap_map]
  rw [runI_bind, runI_anyVersion φ vers h8]; simp only [Option.bind_some]
  rw [runI_bind, runI_r32]; simp only [Option.bind_some]
  rw [runI_bind, runI_r32]; simp only [Option.bind_some]
  rw [runI_bind, runI_r64]; simp only [Option.bind_some]
  rw [runI_bind, runI_rStr _ _ hok.det]; simp only [Option.bind_some]
  rw [runI_bind, runI_r32]; simp only [Option.bind_some]
  rw [if_neg (len_pos _ hlen), len_toNat _ hlen, runI_bind]
  have := runI_readCols φ rd e.cols [] (wIf (decide (1001 < docVersion vers)) e.params.write ++ is) n rg (by
      rw [List.nil_append]
      have ho : Ordered strLt e.cols := hok.ordered
      unfold Ordered at ho ⊢
      rw [List.pairwise_map]; exact ho)
    hok.names hok.types
  rw [this]
  simp only [Option.bind_some, List.nil_append]
  have hcols : ((e.cols.filter fun c => rd.isEmpty || rd.contains c.1).map fun c : Str × ColHead =>
      (c.1, (⟨stripPostfix (if c.2.isSubset then c.2.type ++ subsetPostfix else c.2.type), 0⟩ : ColHead))) =
      (e.cols.filter fun c => rd.isEmpty || rd.contains c.1).map fun c => (c.1, ⟨c.2.type, 0⟩) := by
    apply List.map_congr_left
    intro c hc
    rw [hstrip c (List.mem_of_mem_filter hc)]
  rw [hcols, (Vers.of vers hm).n1_1]
  by_cases h1 : 1001 < docVersion vers
  · simp only [decide_eq_true h1, if_true, wIf_true, if_pos h1]
    rw [runI_bind, runI_params φ e.params hok.params false]
    simp [RProg.runI, pure]
  · simp only [decide_eq_false h1, Bool.false_eq_true, if_false, wIf_false, if_neg h1]
    rw [runI_bind]
    simp [RProg.runI, pure]

end Lcio
