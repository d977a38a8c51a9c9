import Verif.Lcio.CursorLemmas
/-
The event map that is read from the random access records of a file.
-/
namespace Lcio
open Sio Spec

variable {codec : Codec} {std : Std Pid}

/-! ## Reading the chain -/

theorem readIndexAt_pos (m : RaMgr) (codec' : Codec) (pre post : List Byte) (q : Nat) (r : Rec) (x : RunEventMap) (h : IsIndex r x) (p : Int) (hp : p = pre.length) :
    ∃ buf, m.readIndexAt codec' (ready (pre ++ r.wire ++ post) q) p =
      (.ok true, ready (pre ++ r.wire ++ post) (pre.length + r.wire.length), { m with map := m.map.addAll (asRead x), buf := buf }) := by
  obtain ⟨buf, e⟩ := readAny_eq m pre post r h.ok
  obtain ⟨ρ, d, e2⟩ := h.read
  refine ⟨buf, ?_⟩
  subst hp
  unfold RaMgr.readIndexAt
  rw [seekStream_pos]
  simp only
  unfold RaMgr.readIndexRecord
  rw [e]
  simp only
  have hn : (r.info pre.length).name = indexName := h.named
  have ho : isCompressed (r.info pre.length).options = false := h.plain
  rw [if_neg (by rw [hn]; simp)]
  unfold plainData
  rw [ho]
  simp only [Bool.false_eq_true, if_false, e2]
  simp

/-- What is added to the map when the chain of records is followed: the sessions from the last to the first one. -/
def chainEntries (start : Nat) : List Chunk → List (RunEvent × W64)
  | [] => []
  | c :: cs => chainEntries (start + (fileOf c.recs).length) cs ++ asRead (c.map start)

theorem chainEntries_snoc (start : Nat) (cs : List Chunk) (c : Chunk) :
    chainEntries start (cs ++ [c]) = asRead (c.map (start + sizeOf cs)) ++ chainEntries start cs := by
  induction cs generalizing start with
  | nil => simp [chainEntries, sizeOf, recsOf, fileOf_nil]
  | cons x cs ih =>
    have e : sizeOf (x :: cs) = (fileOf x.recs).length + sizeOf cs := by simp [sizeOf, recsOf, fileOf_append]
    simp only [List.cons_append, chainEntries, ih, List.append_assoc, e, Nat.add_assoc]

theorem addAll_append (m : RunEventMap) (a b : List (RunEvent × W64)) : m.addAll (a ++ b) = (m.addAll a).addAll b := by
  simp [RunEventMap.addAll, List.foldl_append]

theorem chain_split (cs : List Chunk) (c : Chunk) (post : List Byte) :
    fileOf (recsOf (cs ++ [c])) ++ post = fileOf (recsOf cs ++ c.groups.flatten ++ [c.ix]) ++ c.acc.wire ++ post ∧
    fileOf (recsOf (cs ++ [c])) ++ post = fileOf (recsOf cs ++ c.groups.flatten) ++ c.ix.wire ++ (c.acc.wire ++ post) ∧
    (fileOf (recsOf cs ++ c.groups.flatten ++ [c.ix])).length = c.loc (sizeOf cs) ∧ (fileOf (recsOf cs ++ c.groups.flatten)).length = c.ixLoc (sizeOf cs) := by
  refine ⟨?_, ?_, ?_, ?_⟩
  · rw [recsOf_snoc]; simp [Chunk.recs, fileOf_append, fileOf_cons, fileOf_nil]
  · rw [recsOf_snoc]; simp [Chunk.recs, fileOf_append, fileOf_cons, fileOf_nil]
  · unfold Chunk.loc Chunk.ixLoc sizeOf
    simp [fileOf_append, fileOf_cons, fileOf_nil]; omega
  · unfold Chunk.ixLoc sizeOf
    simp [fileOf_append]

/-- One step: a random access record and its index. -/
theorem chain_step (codec' : Codec) (cs : List Chunk) (c : Chunk) (prev : W64) (hc : c.Ok codec std (sizeOf cs) prev) (hs : sizeOf (cs ++ [c]) < 2 ^ 63)
    (post : List Byte) (q : Nat) (m : RaMgr) :
    ∃ q1 q2 buf1, m.readAccessAt (ready (fileOf (recsOf (cs ++ [c])) ++ post) q) (BitVec.ofNat 64 (c.loc (sizeOf cs))).toInt =
        (.ok true, ready (fileOf (recsOf (cs ++ [c])) ++ post) q1, { m with list := m.list ++ [c.access (sizeOf cs) prev], buf := buf1 }) ∧
      ∀ m' : RaMgr, (∃ buf, m' = { m with list := m.list ++ [c.access (sizeOf cs) prev], buf := buf }) →
      ∃ buf2, m'.readIndexAt codec' (ready (fileOf (recsOf (cs ++ [c])) ++ post) q1) (c.access (sizeOf cs) prev).indexLoc.toInt =
        (.ok true, ready (fileOf (recsOf (cs ++ [c])) ++ post) q2, { m' with map := m'.map.addAll (asRead (c.map (sizeOf cs))), buf := buf2 }) := by
  obtain ⟨e1, e2, e3, e4⟩ := chain_split cs c post
  have hsz := sizeOf_snoc cs c
  have hloc : c.ixLoc (sizeOf cs) ≤ c.loc (sizeOf cs) := by unfold Chunk.loc; omega
  obtain ⟨buf1, h1⟩ := readAccessAt_pos m (fileOf (recsOf cs ++ c.groups.flatten ++ [c.ix])) post q c.acc _ hc.acc (BitVec.ofNat 64 (c.loc (sizeOf cs))).toInt
    (by rw [e3, toInt_ofNat64 _ (by omega)])
  rw [← e1] at h1
  refine ⟨_, (fileOf (recsOf cs ++ c.groups.flatten)).length + c.ix.wire.length, buf1, h1, ?_⟩
  intro m' _
  obtain ⟨buf2, h2⟩ := readIndexAt_pos m' codec' (fileOf (recsOf cs ++ c.groups.flatten)) (c.acc.wire ++ post)
    ((fileOf (recsOf cs ++ c.groups.flatten ++ [c.ix])).length + c.acc.wire.length) c.ix _ hc.ix
    (BitVec.ofNat 64 (c.ixLoc (sizeOf cs))).toInt (by rw [e4, toInt_ofNat64 _ (by omega)])
  rw [← e2] at h2
  exact ⟨buf2, h2⟩

theorem loc_pos (start : Nat) (c : Chunk) : 0 < c.loc start := by
  have := wire_pos c.ix
  unfold Chunk.loc; omega

theorem chainLoop_eq (codec' : Codec) {cs : List Chunk} {last f : Option RandomAccess} (h : History codec std cs last f) (hs : sizeOf cs < 2 ^ 63)
    (post : List Byte) (q fuel : Nat) (hf : cs.length < fuel) (m : RaMgr) :
    ∃ q' m', RaMgr.chainLoop codec' fuel (prevOf last) m (ready (fileOf (recsOf cs) ++ post) q) = (.ok (), ready (fileOf (recsOf cs) ++ post) q', m') ∧
      m'.map = m.map.addAll (chainEntries 0 cs) ∧ m'.file = m.file := by
  induction h generalizing post q fuel m with
  | nil =>
    cases fuel with
    | zero => omega
    | succ fuel => exact ⟨q, m, rfl, rfl, rfl⟩
  | snoc cs last f c h hc ih =>
    cases fuel with
    | zero => omega
    | succ fuel =>
      have hsz := sizeOf_snoc cs c
      have hlp := loc_pos (sizeOf cs) c
      have hle : sizeOf cs ≤ c.loc (sizeOf cs) := by unfold Chunk.loc Chunk.ixLoc; omega
      obtain ⟨q1, q2, buf1, h1, h2⟩ := chain_step codec' cs c _ hc hs post q m
      obtain ⟨buf2, h3⟩ := h2 _ ⟨buf1, rfl⟩
      have e : fileOf (recsOf (cs ++ [c])) ++ post = fileOf (recsOf cs) ++ (fileOf c.recs ++ post) := by
        rw [recsOf_snoc, fileOf_append, List.append_assoc]
      obtain ⟨q', m', i1, i2, i3⟩ := ih (by omega) (fileOf c.recs ++ post) q2 fuel (by simp at hf; omega)
        { m with map := m.map.addAll (asRead (c.map (sizeOf cs))), list := m.list ++ [c.access (sizeOf cs) (prevOf last)], buf := buf2 }
      refine ⟨q', m', ?_, ?_, by rw [i3]⟩
      · unfold RaMgr.chainLoop
        have hp : prevOf (some (c.access (sizeOf cs) (prevOf last))) = BitVec.ofNat 64 (c.loc (sizeOf cs)) := rfl
        rw [hp, if_neg]
        · rw [h1]
          simp only [List.getLast?_append, List.getLast?_singleton, Option.some_or]
          rw [h3]
          simp only
          have hpl : (c.access (sizeOf cs) (prevOf last)).prevLoc = prevOf last := rfl
          rw [hpl, e]
          exact i1
        · intro h0
          have := congrArg BitVec.toInt h0
          rw [toInt_ofNat64 _ (by omega)] at this
          simp at this
          omega
      · rw [i2, chainEntries_snoc, addAll_append, Nat.zero_add]

theorem history_length {cs : List Chunk} {last f : Option RandomAccess} (h : History codec std cs last f) : cs.length ≤ sizeOf cs := by
  induction h with
  | nil => simp
  | snoc cs last f c h hc ih =>
    have hsz := sizeOf_snoc cs c
    have hlp := wire_pos c.acc
    have hle : sizeOf cs ≤ c.loc (sizeOf cs) := by unfold Chunk.loc Chunk.ixLoc; omega
    simp only [List.length_append, List.length_cons, List.length_nil]
    omega

/-- The event map of a file written in some sessions. -/
theorem createEventMap_eq (codec' : Codec) {cs : List Chunk} {last : Option RandomAccess} {a : RandomAccess} (h : History codec std cs last (some a))
    (hs : sizeOf cs < 2 ^ 63) (r : Rec) (hr : IsAccess r a) (m : RaMgr) (hl : m.list = []) (hm : m.map = {}) :
    ∃ m', m.createEventMap codec' { bytes := fileOf (recsOf cs) ++ r.wire } = (.ok true, { bytes := fileOf (recsOf cs) ++ r.wire }, m') ∧
      m'.map = ({} : RunEventMap).addAll (chainEntries 0 cs) ∧ m'.file = some a := by
  have hnx := history_next codec std cs last (some a) h hs
  cases h with
  | snoc cs last f c h hc =>
    rcases hnx with ⟨h0, -⟩ | ⟨pre, r', l, a', e1, e2, e3, e4, e5, e6, -⟩
    · simp at h0
    · cases e2; cases e3
      have hsz := sizeOf_snoc cs c
      have hle : sizeOf cs ≤ c.loc (sizeOf cs) := by unfold Chunk.loc Chunk.ixLoc; omega
      obtain ⟨buf1, h1⟩ := readAccessAt_end m (fileOf (recsOf (cs ++ [c]))) 0 r _ hr
      obtain ⟨q1, q2, buf2, h2, h3⟩ := chain_step codec' cs c _ hc hs r.wire ((fileOf (recsOf (cs ++ [c]))).length + r.wire.length)
        { m with list := [], file := some (closing f last (c.access (sizeOf cs) (prevOf last))), buf := buf1 }
      obtain ⟨buf3, h4⟩ := h3 _ ⟨buf2, rfl⟩
      have e : fileOf (recsOf (cs ++ [c])) ++ r.wire = fileOf (recsOf cs) ++ (fileOf c.recs ++ r.wire) := by
        rw [recsOf_snoc, fileOf_append, List.append_assoc]
      have hfuel : cs.length < recordFuel (ready (fileOf (recsOf (cs ++ [c])) ++ r.wire) q2) := by
        have := history_length h
        have h2 : sizeOf cs ≤ (fileOf (recsOf (cs ++ [c])) ++ r.wire).length := by rw [e, List.length_append]; unfold sizeOf; omega
        show cs.length < (fileOf (recsOf (cs ++ [c])) ++ r.wire).length + 2
        omega
      obtain ⟨q', m', i1, i2, i3⟩ := chainLoop_eq codec' h (by omega) (fileOf c.recs ++ r.wire) q2 _ hfuel
        { m with map := ({} : RunEventMap).addAll (asRead (c.map (sizeOf cs))), list := [c.access (sizeOf cs) (prevOf last)],
                 file := some (closing f last (c.access (sizeOf cs) (prevOf last))), buf := buf3 }
      refine ⟨m', ?_, ?_, i3⟩
      · unfold RaMgr.createEventMap
        have hin : ({ bytes := fileOf (recsOf (cs ++ [c])) ++ r.wire } : IStream) = ready (fileOf (recsOf (cs ++ [c])) ++ r.wire) 0 := rfl
        rw [hin, h1]
        simp only [hl, List.nil_append, List.getLast?_singleton, List.dropLast_singleton]
        have hnl : (closing f last (c.access (sizeOf cs) (prevOf last))).nextLoc = BitVec.ofNat 64 (c.loc (sizeOf cs)) := by rw [e6]; rfl
        rw [hnl, h2]
        simp only [List.nil_append, List.getLast?_singleton] at h4 ⊢
        rw [h4]
        simp only
        have hpl : (c.access (sizeOf cs) (prevOf last)).prevLoc = prevOf last := rfl
        rw [hpl]
        rw [hm]
        rw [← e] at i1
        rw [i1]
        simp only
        have := seekStream_pos (fileOf (recsOf (cs ++ [c])) ++ r.wire) q' 0
        rw [Int.natCast_zero] at this
        rw [this]
      · rw [i2, chainEntries_snoc, addAll_append, Nat.zero_add]

/-! ## What is in the map -/

theorem signExtend_small (x : W64) (h1 : -2 ^ 31 ≤ x.toInt) (h2 : x.toInt < 2 ^ 31) : (x.setWidth 32).signExtend 64 = x := by
  apply BitVec.eq_of_toInt_eq
  rw [BitVec.toInt_signExtend_of_le (by decide), BitVec.toInt_setWidth]
  have := x.toInt_eq_toNat_bmod
  rw [Int.bmod_def] at *
  omega

theorem min_least (m : RunEventMap) (h : Ordered RunEvent.lt m.map) (e : RunEvent × W64) (he : e ∈ m.map) : RunEvent.lt e.1 m.minRunEvent = false := by
  unfold RunEventMap.minRunEvent
  cases hm : m.map with
  | nil => rw [hm] at he; cases he
  | cons x l =>
    rw [hm] at he h
    simp only [List.head?_cons, Option.map_some, Option.getD_some]
    unfold Ordered at h
    rw [List.pairwise_cons] at h
    rcases List.mem_cons.1 he with rfl | he
    · exact RunEvent.strictWeak.irrefl _
    · have := h.1 e he
      rw [← Bool.not_eq_true, RunEvent.lt_iff]
      rw [RunEvent.lt_iff] at this
      omega

theorem max_greatest (m : RunEventMap) (h : Ordered RunEvent.lt m.map) (e : RunEvent × W64) (he : e ∈ m.map) : RunEvent.lt m.maxRunEvent e.1 = false := by
  unfold RunEventMap.maxRunEvent
  rcases List.eq_nil_or_concat m.map with hm | ⟨l, x, hm⟩
  · rw [hm] at he; cases he
  · rw [List.concat_eq_append] at hm
    rw [hm] at he h
    rw [hm]
    simp only [List.getLast?_append, List.getLast?_singleton, Option.some_or, Option.map_some, Option.getD_some]
    unfold Ordered at h
    rw [List.pairwise_append] at h
    rcases List.mem_append.1 he with he | he
    · have := h.2.2 e he x (by simp)
      rw [← Bool.not_eq_true, RunEvent.lt_iff]
      rw [RunEvent.lt_iff] at this
      omega
    · simp at he; subst he; exact RunEvent.strictWeak.irrefl _

theorem maxRunEvent_mem (m : RunEventMap) (h : m.map ≠ []) : m.maxRunEvent ∈ m.map.map (·.1) := by
  unfold RunEventMap.maxRunEvent
  rcases List.eq_nil_or_concat m.map with hm | ⟨l, x, hm⟩
  · exact absurd hm h
  · rw [List.concat_eq_append] at hm
    rw [hm]
    simp

/-- Where the index is lossless. -/
theorem asRead_self (m : RunEventMap) (h : Ordered RunEvent.lt m.map)
    (hone : (∀ e ∈ m.map, e.1.run = m.minRunEvent.run) ∨ m.minRunEvent.run ≠ m.maxRunEvent.run)
    (hpos : ∀ e ∈ m.map, 0 ≤ e.2.toInt ∧ e.2.toInt < 2 ^ 31) : asRead m = m.map := by
  unfold asRead
  refine (List.map_congr_left ?_).trans (List.map_id _)
  intro e he
  unfold indexEntry
  have h1 : (if m.oneRun = true then m.minRunEvent.run else e.1.run) = e.1.run := by
    split
    · rename_i ho
      rcases hone with h' | h'
      · rw [h' e he]
      · unfold RunEventMap.oneRun at ho
        exact absurd (by simpa using ho) h'
    · rfl
  have h2 : (if m.longOffset = true then e.2 else m.getPosition m.minRunEvent + ((e.2 - m.getPosition m.minRunEvent).setWidth 32).signExtend 64) = e.2 := by
    split
    · rfl
    · have hb : 0 ≤ (m.getPosition m.minRunEvent).toInt ∧ (m.getPosition m.minRunEvent).toInt < 2 ^ 31 := by
        have : ∃ x ∈ m.map, m.getPosition m.minRunEvent = x.2 := by
          cases hmm : m.map with
          | nil => rw [hmm] at he; cases he
          | cons x xs =>
            refine ⟨x, by simp, ?_⟩
            unfold RunEventMap.getPosition
            rw [RunEvent.ofLong_toLong]
            have : m.minRunEvent = x.1 := by unfold RunEventMap.minRunEvent; rw [hmm]; rfl
            rw [this, omFind_mem RunEvent.strictWeak m.map h x (by rw [hmm]; simp)]
            rfl
        obtain ⟨x, hx, hx2⟩ := this
        rw [hx2]; exact hpos x hx
      have he' := hpos e he
      have : (e.2 - m.getPosition m.minRunEvent).toInt = e.2.toInt - (m.getPosition m.minRunEvent).toInt := by
        rw [BitVec.toInt_sub, Int.bmod_def]
        split <;> omega
      rw [signExtend_small _ (by omega) (by omega), BitVec.add_comm, BitVec.sub_add_cancel]
  rw [h1, h2]; rfl

/-- Entries of a map come from the additions. -/
theorem MapInv.mem {m : RunEventMap} {l : List (RunEvent × W64)} (h : MapInv m l) (hreg : ∀ x ∈ l, -1 ≤ x.1.evt.toInt) (e : RunEvent × W64) (he : e ∈ m.map) :
    e ∈ l := by
  have h1 := h.find e.1
  rw [omFind_mem RunEvent.strictWeak m.map h.ordered e he] at h1
  cases hf : l.reverse.find? (fun x => eqv RunEvent.lt x.1 e.1) with
  | none => rw [hf] at h1; simp at h1
  | some x =>
    rw [hf] at h1
    have h2 := List.find?_some hf
    have h3 := List.mem_reverse.1 (List.mem_of_find?_eq_some hf)
    rw [RunEvent.eqv_iff] at h2
    have hek := h.keys e.1 (List.mem_map.2 ⟨e, he, rfl⟩)
    obtain ⟨y, hy, hy2⟩ := List.mem_map.1 hek
    have h4 := rank_inj _ _ (hreg x h3) (by rw [← hy2]; exact hreg y hy) h2
    simp at h1
    have : e = x := Prod.ext h4.symm h1
    rw [this]; exact h3

theorem MapInv.lookup {m : RunEventMap} {l : List (RunEvent × W64)} (h : MapInv m l) (hreg : ∀ x ∈ l, -1 ≤ x.1.evt.toInt) (re : RunEvent) (hre : -1 ≤ re.evt.toInt) :
    (re ∉ l.map (·.1) ∧ m.getPosition re = npos) ∨ ∃ pos, (re, pos) ∈ l ∧ m.getPosition re = pos := by
  unfold RunEventMap.getPosition
  rw [RunEvent.ofLong_toLong, h.find]
  cases hf : l.reverse.find? (fun x => eqv RunEvent.lt x.1 re) with
  | none =>
    left
    refine ⟨?_, rfl⟩
    intro hm
    obtain ⟨x, hx, hx2⟩ := List.mem_map.1 hm
    have := List.find?_eq_none.1 hf x (List.mem_reverse.2 hx)
    apply this
    rw [RunEvent.eqv_iff, hx2]
  | some x =>
    right
    have h2 := List.find?_some hf
    have h3 := List.mem_reverse.1 (List.mem_of_find?_eq_some hf)
    rw [RunEvent.eqv_iff] at h2
    have h4 := rank_inj _ _ (hreg x h3) hre h2
    exact ⟨x.2, by rw [← h4]; exact h3, rfl⟩

/-- A position in a session. -/
theorem keysFrom_split (ps : List Put) (gs : List (List Rec)) (h : All2 (Holds codec std) ps gs) (p : Nat) (k : RunEvent) (pos : Nat) (hm : (k, pos) ∈ keysFrom p ps gs) :
    ∃ ps1 q ps2 gs1 g gs2, ps = ps1 ++ q :: ps2 ∧ gs = gs1 ++ g :: gs2 ∧ All2 (Holds codec std) (q :: ps2) (g :: gs2) ∧ q.key = k ∧
      pos = p + (fileOf gs1.flatten).length := by
  induction ps generalizing gs p with
  | nil => cases h.nil_inv; simp [keysFrom] at hm
  | cons q ps ih =>
    obtain ⟨g, gs', rfl, h1, h2⟩ := h.cons_inv
    simp only [keysFrom, List.mem_cons, Prod.mk.injEq] at hm
    rcases hm with ⟨rfl, rfl⟩ | hm
    · exact ⟨[], q, ps, [], g, gs', rfl, rfl, h, rfl, by simp [fileOf_nil]⟩
    · obtain ⟨ps1, q', ps2, gs1, g', gs2, e1, e2, e3, e4, e5⟩ := ih gs' h2 _ hm
      exact ⟨q :: ps1, q', ps2, g :: gs1, g', gs2, by rw [e1]; rfl, by rw [e2]; rfl, e3, e4, by rw [e5]; simp [fileOf_append]; omega⟩

/-- The index of a session is read as it was. -/
def Chunk.Plain (start : Nat) (c : Chunk) : Prop := asRead (c.map start) = (c.map start).map

theorem chunk_entries_reg (start : Nat) (c : Chunk) (hc : All2 (Holds codec std) c.puts c.groups) (hreg : ∀ p ∈ c.puts, -1 ≤ p.key.evt.toInt) :
    ∀ x ∈ c.entries start, -1 ≤ x.1.evt.toInt := by
  intro x hx
  have h1 := keysFrom_fst codec std _ _ hc start
  obtain ⟨y, hy, rfl⟩ := List.mem_map.1 hx
  have : y.1 ∈ c.puts.map Put.key := by rw [← h1]; exact List.mem_map.2 ⟨y, hy, rfl⟩
  obtain ⟨p, hp, hp2⟩ := List.mem_map.1 this
  show -1 ≤ y.1.evt.toInt
  rw [← hp2]; exact hreg p hp

/-- An entry found by following the chain points to what was written. -/
theorem chain_mem {cs : List Chunk} {last f : Option RandomAccess} (h : History codec std cs last f)
    (hreg : ∀ c ∈ cs, ∀ p ∈ c.puts, -1 ≤ p.key.evt.toInt) (hpl : ∀ cs1 c cs2, cs = cs1 ++ c :: cs2 → c.Plain (sizeOf cs1))
    {qs : List Put} {rs : List Rec} (hq : Layout codec std qs rs) (k : RunEvent) (pos : W64) (hm : (k, pos) ∈ chainEntries 0 cs) :
    ∃ pre p post ra rb, cs.flatMap Chunk.puts = pre ++ p :: post ∧ p.key = k ∧ recsOf cs = ra ++ rb ∧ pos = BitVec.ofNat 64 (fileOf ra).length ∧
      Layout codec std (p :: post ++ qs) (rb ++ rs) := by
  induction h generalizing qs rs with
  | nil => simp [chainEntries] at hm
  | snoc cs last f c h hc ih =>
    rw [chainEntries_snoc, List.mem_append, Nat.zero_add] at hm
    have h2 := index_other hc.ix
    have h3 := access_other hc.acc
    have htail : Layout codec std qs (c.ix :: c.acc :: rs) := .other _ _ _ hc.ix.ok h2.1 h2.2.1 h2.2.2 (.other _ _ _ hc.acc.ok h3.1 h3.2.1 h3.2.2 hq)
    rcases hm with hm | hm
    · have hp := hpl cs c [] rfl
      unfold Chunk.Plain at hp
      rw [hp] at hm
      have hinv := addAll_inv (c.entries (sizeOf cs)) {} [] MapInv.empty
      rw [List.nil_append] at hinv
      have hmem := hinv.mem (chunk_entries_reg _ _ hc.puts (hreg c (by simp))) _ hm
      obtain ⟨y, hy, hy2⟩ := List.mem_map.1 hmem
      obtain ⟨yk, yp⟩ := y
      cases hy2
      obtain ⟨ps1, q, ps2, gs1, g, gs2, e1, e2, e3, e4, e5⟩ := keysFrom_split _ _ hc.puts _ _ _ hy
      refine ⟨cs.flatMap Chunk.puts ++ ps1, q, ps2, recsOf cs ++ gs1.flatten, g ++ gs2.flatten ++ [c.ix, c.acc], ?_, e4, ?_, ?_, ?_⟩
      · simp [e1]
      · rw [recsOf_snoc]; simp [Chunk.recs, e2]
      · rw [e5]; simp [fileOf_append, sizeOf]
      · have := layout_groups e3 htail
        simpa using this
    · obtain ⟨pre, p, post, ra, rb, e1, e2, e3, e4, e5⟩ := ih (fun c' hc' => hreg c' (by simp [hc'])) (fun cs1 c' cs2 e => hpl cs1 c' (cs2 ++ [c]) (by rw [e]; simp))
        (layout_groups hc.puts htail) hm
      refine ⟨pre, p, post ++ c.puts, ra, rb ++ c.recs, ?_, e2, ?_, e4, ?_⟩
      · simp [e1]
      · rw [recsOf_snoc, e3]; simp
      · simpa [Chunk.recs] using e5

theorem chain_keys {cs : List Chunk} {last f : Option RandomAccess} (h : History codec std cs last f)
    (hreg : ∀ c ∈ cs, ∀ p ∈ c.puts, -1 ≤ p.key.evt.toInt) (hpl : ∀ cs1 c cs2, cs = cs1 ++ c :: cs2 → c.Plain (sizeOf cs1)) (k : RunEvent) :
    k ∈ (chainEntries 0 cs).map (·.1) ↔ k ∈ (cs.flatMap Chunk.puts).map Put.key := by
  induction h with
  | nil => simp [chainEntries]
  | snoc cs last f c h hc ih =>
    have hp := hpl cs c [] rfl
    unfold Chunk.Plain at hp
    have hinv := addAll_inv (c.entries (sizeOf cs)) {} [] MapInv.empty
    rw [List.nil_append] at hinv
    have h1 := hinv.keys_iff (chunk_entries_reg _ _ hc.puts (hreg c (by simp))) k
    have h2 : (c.entries (sizeOf cs)).map (·.1) = c.puts.map Put.key := by
      rw [← keysFrom_fst codec std _ _ hc.puts (sizeOf cs)]
      simp [Chunk.entries]
    have h3 := ih (fun c' hc' => hreg c' (by simp [hc'])) (fun cs1 c' cs2 e => hpl cs1 c' (cs2 ++ [c]) (by rw [e]; simp))
    rw [h2] at h1
    rw [chainEntries_snoc, Nat.zero_add, hp]
    simp only [List.map_append, List.mem_append, List.flatMap_append, List.flatMap_cons, List.flatMap_nil, List.append_nil]
    rw [h3]
    unfold Chunk.map
    rw [h1]
    exact Or.comm

/-! ## Opening a file for direct access -/

theorem put_reg (ss : List Session) (h : DirectOk ss) (p : Put) (hp : p ∈ allPuts ss) : -1 ≤ p.key.evt.toInt := by
  cases p with
  | run hd buf => show -1 ≤ (-1 : BitVec 32).toInt; decide
  | event hd cols buf => have := h.numbers _ hp rfl; omega

/-- The index of a session is lossless. -/
theorem chunk_plain (c : Chunk) (start : Nat) (prev : W64) (hc : c.Ok codec std start prev) (ho : OneIndex c.puts)
    (hreg : ∀ p ∈ c.puts, -1 ≤ p.key.evt.toInt) (hsz : start + (fileOf c.recs).length < 2 ^ 31) : c.Plain start := by
  have hinv := addAll_inv (c.entries start) {} [] MapInv.empty
  rw [List.nil_append] at hinv
  have hreg' := chunk_entries_reg start c hc.puts hreg
  have hkeys : ∀ k, k ∈ (c.map start).map.map (·.1) ↔ k ∈ c.puts.map Put.key := by
    intro k
    have h2 : (c.entries start).map (·.1) = c.puts.map Put.key := by
      rw [← keysFrom_fst codec std _ _ hc.puts start]
      simp [Chunk.entries]
    rw [← h2]
    exact hinv.keys_iff hreg' k
  have hne : (c.map start).map ≠ [] := by
    intro h0
    have h1 := hkeys
    rw [h0] at h1
    cases hp : c.puts with
    | nil => exact hc.some hp
    | cons p ps => have := (h1 p.key).2 (by rw [hp]; simp); simp at this
  apply asRead_self (c.map start) hinv.ordered
  · rcases ho with ho | ⟨p, hp, q, hq, hne', hmm⟩
    · left
      intro e he
      obtain ⟨x, hx, hx2⟩ := List.mem_map.1 ((hkeys e.1).1 (List.mem_map.2 ⟨e, he, rfl⟩))
      obtain ⟨y, hy, hy2⟩ := List.mem_map.1 ((hkeys _).1 (minRunEvent_mem _ hne))
      rw [← hx2, ← hy2]
      exact ho x hx y hy
    · right
      obtain ⟨y, hy, hy2⟩ := List.mem_map.1 ((hkeys _).1 (minRunEvent_mem _ hne))
      obtain ⟨z, hz, hz2⟩ := List.mem_map.1 ((hkeys _).1 (maxRunEvent_mem _ hne))
      obtain ⟨e, he, he2⟩ := List.mem_map.1 ((hkeys p.key).2 (List.mem_map.2 ⟨p, hp, rfl⟩))
      obtain ⟨e', he', he2'⟩ := List.mem_map.1 ((hkeys q.key).2 (List.mem_map.2 ⟨q, hq, rfl⟩))
      have a1 := min_least _ hinv.ordered e he
      have a2 := max_greatest _ hinv.ordered e' he'
      have b1 := (hmm y hy).1
      have b2 := (hmm z hz).2
      rw [he2] at a1
      rw [he2'] at a2
      rw [hy2] at b1
      rw [hz2] at b2
      rw [← Bool.not_eq_true, RunEvent.lt_iff] at a1 a2 b1 b2
      have r1 := (rank_sign p.key (c.map start).minRunEvent (by unfold Chunk.map at b1 ⊢; omega)).2
      have r2 := (rank_sign q.key (c.map start).maxRunEvent (by unfold Chunk.map at b2 ⊢; omega)).2
      rw [← r1, ← r2]
      exact hne'
  · intro e he
    have hmem := hinv.mem hreg' e he
    obtain ⟨y, hy, rfl⟩ := List.mem_map.1 hmem
    obtain ⟨yk, yp⟩ := y
    obtain ⟨ps1, q, ps2, gs1, g, gs2, e1, e2, e3, e4, e5⟩ := keysFrom_split _ _ hc.puts _ _ _ hy
    have hle : yp < 2 ^ 31 := by
      rw [chunk_size] at hsz
      have : (fileOf gs1.flatten).length ≤ (fileOf c.groups.flatten).length := by rw [e2]; simp [fileOf_append]
      omega
    show 0 ≤ (BitVec.ofNat 64 yp).toInt ∧ (BitVec.ofNat 64 yp).toInt < 2 ^ 31
    rw [toInt_ofNat64 _ (by omega)]
    omega

theorem chunks_plain {cs : List Chunk} {last f : Option RandomAccess} (h : History codec std cs last f)
    (ho : ∀ c ∈ cs, OneIndex c.puts) (hreg : ∀ c ∈ cs, ∀ p ∈ c.puts, -1 ≤ p.key.evt.toInt) (hsz : sizeOf cs < 2 ^ 31) :
    ∀ cs1 c cs2, cs = cs1 ++ c :: cs2 → c.Plain (sizeOf cs1) := by
  induction h with
  | nil => intro cs1 c cs2 e; simp at e
  | snoc cs last f c h hc ih =>
    intro cs1 c' cs2 e
    have hs1 : sizeOf (cs ++ [c]) = sizeOf cs + (fileOf c.recs).length := by simp [sizeOf, recsOf, fileOf_append]
    rcases List.eq_nil_or_concat cs2 with rfl | ⟨cs2, x, rfl⟩
    · have := List.append_inj' e rfl
      obtain ⟨rfl, e2⟩ := this
      cases e2
      exact chunk_plain c _ _ hc (ho c (by simp)) (hreg c (by simp)) (by omega)
    · rw [List.concat_eq_append] at e
      have e' : cs ++ [c] = (cs1 ++ c' :: cs2) ++ [x] := by rw [e]; simp
      have := List.append_inj' e' rfl
      obtain ⟨rfl, e2⟩ := this
      exact ih (fun y hy => ho y (List.mem_append_left _ hy)) (fun y hy => hreg y (List.mem_append_left _ hy)) (by omega) cs1 c' cs2 rfl

theorem chunks_puts {cs : List Chunk} {ss : List Session} (h : cs.map Chunk.puts = (ss.map Session.puts).filter (fun l => !l.isEmpty)) :
    cs.flatMap Chunk.puts = allPuts ss ∧ ∀ c ∈ cs, ∃ s ∈ ss, s.puts = c.puts := by
  constructor
  · have a : ∀ l : List (List Put), (l.filter fun l => !l.isEmpty).flatten = l.flatten := by
      intro l
      induction l with
      | nil => rfl
      | cons x l ih => cases x <;> simp [ih]
    rw [List.flatMap, h, a]
    rfl
  · intro c hc
    have : c.puts ∈ cs.map Chunk.puts := List.mem_map.2 ⟨c, hc, rfl⟩
    rw [h] at this
    obtain ⟨s, hs, hs2⟩ := List.mem_map.1 (List.mem_filter.1 this).1
    exact ⟨s, hs, hs2⟩

/-- What opening a file for direct access gives. -/
theorem open_direct (cfg : RConfig) (hcodec : Lossless cfg.codec) (ss : List Session) (hs : SessionsOk cfg.codec cfg.std ss) (hd : DirectOk ss) (name : Str) :
    ∃ bytes, fileAfter cfg.codec cfg.std ss = .ok (some bytes) ∧ (bytes.length < 2 ^ 31 → ∃ ra L,
      Reader.openFiles cfg true [(name, bytes)] = (.ok (), { files := [(name, bytes)], stream := { bytes := bytes }, readMap := true, ra := ra }) ∧
      ra.map = ({} : RunEventMap).addAll L ∧ (∀ x ∈ L, -1 ≤ x.1.evt.toInt) ∧ (∀ k, k ∈ L.map (·.1) ↔ k ∈ (allPuts ss).map Put.key) ∧
      ∀ k pos, (k, pos) ∈ L → ∃ pre p post ra rb, allPuts ss = pre ++ p :: post ∧ p.key = k ∧ bytes = fileOf (ra ++ rb) ∧ pos = BitVec.ofNat 64 (fileOf ra).length ∧
        Layout cfg.codec cfg.std (p :: post) rb) := by
  obtain ⟨cs, last, f, bytes, h1, h2, h3⟩ := fileAfter_content cfg.codec hcodec cfg.std ss hs
  refine ⟨bytes, h2, ?_⟩
  intro hlen
  obtain ⟨p1, p2⟩ := chunks_puts h1
  cases h3 with
  | some h a ha r hr =>
    subst ha
    have hsz : sizeOf cs < 2 ^ 31 := by rw [List.length_append] at hlen; unfold sizeOf; omega
    have hreg : ∀ c ∈ cs, ∀ p ∈ c.puts, -1 ≤ p.key.evt.toInt := by
      intro c hc p hp
      apply put_reg ss hd
      rw [← p1]
      exact List.mem_flatMap.2 ⟨c, hc, hp⟩
    have ho : ∀ c ∈ cs, OneIndex c.puts := by
      intro c hc
      obtain ⟨s, hs1, hs2⟩ := p2 c hc
      rw [← hs2]; exact hd.index s hs1
    have hpl := chunks_plain h ho hreg hsz
    obtain ⟨m', e1, e2, -⟩ := createEventMap_eq cfg.codec h (by omega) r hr {} rfl rfl
    have hk := chain_keys h hreg hpl
    rw [p1] at hk
    refine ⟨m', chainEntries 0 cs, ?_, e2, ?_, hk, ?_⟩
    · unfold Reader.openFiles Reader.openFile
      simp only [if_true]
      rw [e1]
    · intro x hx
      obtain ⟨p, hp, hp2⟩ := List.mem_map.1 ((hk x.1).1 (List.mem_map.2 ⟨x, hx, rfl⟩))
      rw [← hp2]
      exact put_reg ss hd p hp
    · intro k pos hm
      have h4 := access_other hr
      obtain ⟨pre, p, post, ra, rb, d1, d2, d3, d4, d5⟩ := chain_mem h hreg hpl (.other _ _ _ hr.ok h4.1 h4.2.1 h4.2.2 .nil) k pos hm
      rw [p1] at d1
      refine ⟨pre, p, post, ra, rb ++ [r], d1, d2, ?_, d4, by simpa using d5⟩
      rw [d3]; simp [fileOf_append, fileOf_cons, fileOf_nil]

theorem addAll_build (L : List (RunEvent × W64)) : ({} : RunEventMap).addAll L = build (L.map fun e => .add e.1 e.2) ∧
    additions (L.map fun e => MapOp.add e.1 e.2) = L := by
  constructor
  · unfold RunEventMap.addAll build
    rw [List.foldl_map]
  · unfold additions
    rw [List.foldl_map]
    have : ∀ (l acc : List (RunEvent × W64)), l.foldl (fun l e => l ++ [(e.1, e.2)]) acc = acc ++ l := by
      intro l
      induction l with
      | nil => simp
      | cons e l ih => intro acc; rw [List.foldl_cons, ih]; simp
    exact this L []

/-- Going to a position. -/
theorem direct_at (cfg : RConfig) (name : Str) (bytes : List Byte) (hlen : bytes.length < 2 ^ 31) (ra : RaMgr) (ra' rb : List Rec) (ps : List Put) (pos : W64)
    (e3 : bytes = fileOf (ra' ++ rb)) (e4 : pos = BitVec.ofNat 64 (fileOf ra').length) (e5 : Layout cfg.codec cfg.std ps rb) :
    pos ≠ npos ∧
    At cfg (seeked { files := [(name, bytes)], stream := { bytes := bytes }, readMap := true, ra := ra } pos) name ps [] ∧
    Reader.seekTo { files := [(name, bytes)], stream := { bytes := bytes }, readMap := true, ra := ra } pos =
      (.ok (), seeked { files := [(name, bytes)], stream := { bytes := bytes }, readMap := true, ra := ra } pos) := by
  have hra : (fileOf ra').length < 2 ^ 31 := by rw [e3, fileOf_append, List.length_append] at hlen; omega
  have hi : pos.toInt = (fileOf ra').length := by rw [e4, toInt_ofNat64 _ (by omega)]
  have hin : ({ bytes := bytes } : IStream) = ready bytes 0 := rfl
  refine ⟨?_, ⟨⟨fileOf ra', rb, ?_, e5⟩, rfl, All2.nil _⟩, ?_⟩
  · intro h0
    rw [h0] at hi
    have hn : npos.toInt = -1 := by decide
    omega
  · have hp : pos.toNat = (fileOf ra').length := by rw [e4, BitVec.toNat_ofNat, Nat.mod_eq_of_lt (by omega)]
    unfold seeked
    simp only
    rw [hin, seekg_ready, hp, e3, fileOf_append]
  · unfold Reader.seekTo seeked
    rw [if_neg (by omega)]
    simp only
    rw [hin, seekg_ready, ready_good, if_pos rfl]

/-! ## Searching for an event -/

theorem finishEvent_header (cfg : RConfig) (a b : EventData) (h : finishEvent cfg a = .ok b) : b.1 = a.1 := by
  unfold finishEvent at h
  split at h
  · cases h
  · cases h; rfl

def searchStep (cfg : RConfig) (run evt : W32) := scan (fun st i => (st, isEventRecord i)) (searchProcessor cfg run evt)

/-- The records of an event, when an event is searched for. -/
theorem search_event (cfg : RConfig) (run evt : W32) (r r' : Rec) (e : EventData) (h : EventRecs cfg r r' e) (st : EventState) (p : Nat) (rs : List Rec) :
    (¬ (e.1.evt = evt ∧ e.1.run = run) → ∃ st', searchStep cfg run evt st p (r :: r' :: rs) = searchStep cfg run evt st' (p + r.wire.length + r'.wire.length) rs) ∧
    ((e.1.evt = evt ∧ e.1.run = run) → ∃ st' e0, searchStep cfg run evt st p (r :: r' :: rs) = (st', .ok (), some rs) ∧
      st'.evt = some e0 ∧ finishEvent cfg e0 = .ok e) := by
  obtain ⟨d1, d2, hdr, cols, h1, h2, h3, h4, h5⟩ := h.read
  have hh := finishEvent_header cfg _ _ h5
  have v1 : isEventRecord (r.info p) = true := by simp [isEventRecord, Rec.info, h.name]
  have p1 : searchProcessor cfg run evt st (r.info p) r.data = ({ hdr := some hdr }, .ok true) := by
    unfold searchProcessor
    rw [plainData_rec, h1]
    simp only
    rw [if_pos (by exact h.name), h3]
  have v2 : isEventRecord (r'.info (p + r.wire.length)) = true := by simp [isEventRecord, Rec.info, h.name']
  have p2 : searchProcessor cfg run evt { hdr := some hdr } (r'.info (p + r.wire.length)) r'.data =
      if e.1.evt = evt ∧ e.1.run = run then ({ hdr := some hdr, evt := some (hdr, cols) }, .ok false) else ({ hdr := some hdr }, .ok true) := by
    unfold searchProcessor
    rw [plainData_rec, h2]
    simp only
    rw [if_neg (by show ¬ r'.name = _; rw [h.name']; decide), if_pos (by exact h.name'), h4, hh]
  constructor
  · intro hne
    refine ⟨{ hdr := some hdr }, ?_⟩
    unfold searchStep
    rw [scan_cons, v1]
    simp only [p1]
    rw [scan_cons, v2]
    simp only [p2, if_neg hne]
  · intro heq
    refine ⟨{ hdr := some hdr, evt := some (hdr, cols) }, (hdr, cols), ?_, rfl, h5⟩
    unfold searchStep
    rw [scan_cons, v1]
    simp only [p1]
    rw [scan_cons, v2]
    simp only [p2, if_pos heq]

theorem search_skip (cfg : RConfig) (run evt : W32) (r : Rec) (rs : List Rec) (st : EventState) (p : Nat) (h2 : r.name ≠ headerRecordName) (h3 : r.name ≠ eventRecordName) :
    searchStep cfg run evt st p (r :: rs) = searchStep cfg run evt st (p + r.wire.length) rs := by
  unfold searchStep
  rw [scan_skip]
  rw [isEventRecord_other r p h2 h3]

/-- All events can be read, and with the numbers they were written with. -/
def Numbered (cfg : RConfig) (file : Str) (ps : List Put) : Prop :=
  ∀ p ∈ ps, p.isEvent = true → ∃ e, delivery cfg file p = some (.event e) ∧ (⟨e.1.run, e.1.evt⟩ : RunEvent) = p.key

theorem search_layout (cfg : RConfig) (run evt : W32) (file : Str) {ps : List Put} {rs : List Rec} (h : Layout cfg.codec cfg.std ps rs) (hn : Numbered cfg file ps)
    (st : EventState) (q : Nat) :
    ((∀ p ∈ ps, p.isEvent = true → p.key ≠ ⟨run, evt⟩) → ∃ st', searchStep cfg run evt st q rs = (st', .error .eof, none)) ∧
    (∀ pre p post, ps = pre ++ p :: post → (∀ p ∈ pre, p.isEvent = true → p.key ≠ ⟨run, evt⟩) → p.isEvent = true → p.key = ⟨run, evt⟩ →
      ∃ st' rs' e0 e, searchStep cfg run evt st q rs = (st', .ok (), some rs') ∧ st'.evt = some e0 ∧ finishEvent cfg e0 = .ok e ∧ delivery cfg file p = some (.event e)) := by
  induction h generalizing st q with
  | nil => exact ⟨fun _ => ⟨st, rfl⟩, fun pre p post e => by simp at e⟩
  | other r ps rs hr h1 h2 h3 h ih =>
    obtain ⟨i1, i2⟩ := ih hn st (q + r.wire.length)
    rw [search_skip cfg run evt r rs st q h2 h3]
    exact ⟨i1, i2⟩
  | put p g ps rs hg h ih =>
    cases p with
    | run hd buf =>
      obtain ⟨r, rfl, hr, -⟩ := hg
      obtain ⟨i1, i2⟩ := ih (fun p hp => hn p (by simp [hp])) st (q + r.wire.length)
      simp only [List.cons_append, List.nil_append]
      rw [search_skip cfg run evt r rs st q (by rw [hr.named]; decide) (by rw [hr.named]; decide)]
      refine ⟨fun hx => i1 fun p hp => hx p (by simp [hp]), ?_⟩
      intro pre p post e hpre hp hk
      cases pre with
      | nil => cases e; simp [Put.isEvent] at hp
      | cons x pre =>
        cases e
        exact i2 pre p post rfl (fun y hy => hpre y (by simp [hy])) hp hk
    | event hd cols buf =>
      obtain ⟨e, he, hek⟩ := hn (.event hd cols buf) (by simp) rfl
      obtain ⟨r, r', rfl, hrec⟩ := holds_event cfg hd cols buf g e hg file he
      obtain ⟨s1, s2⟩ := search_event cfg run evt r r' e hrec st q rs
      simp only [List.cons_append, List.nil_append]
      have hmatch : (e.1.evt = evt ∧ e.1.run = run) ↔ (Put.event hd cols buf).key = ⟨run, evt⟩ := by
        rw [← hek]; simp [And.comm]
      constructor
      · intro hx
        obtain ⟨st', e1⟩ := s1 (by rw [hmatch]; exact hx _ (by simp) rfl)
        rw [e1]
        exact (ih (fun p hp => hn p (by simp [hp])) st' _).1 fun p hp => hx p (by simp [hp])
      · intro pre p post e' hpre hp hk
        cases pre with
        | nil =>
          cases e'
          obtain ⟨st', e0, e1, e2, e3⟩ := s2 (hmatch.2 hk)
          exact ⟨st', rs, e0, e, e1, e2, e3, he⟩
        | cons x pre =>
          cases e'
          obtain ⟨st', e1⟩ := s1 (by rw [hmatch]; exact hpre _ (by simp) rfl)
          rw [e1]
          exact (ih (fun p hp => hn p (List.mem_cons_of_mem _ hp)) st' _).2 pre p post rfl (fun y hy => hpre y (by simp [hy])) hp hk

/-- `readEvent` without event map. -/
theorem search_at (cfg : RConfig) (run evt : W32) (r : Reader) (hm : r.readMap = false) (name : Str) (ps : List Put) (rest : List (Str × List Put)) (h : At cfg r name ps rest)
    (hn : Numbered cfg name ps) :
    ((∀ p ∈ ps, p.isEvent = true → p.key ≠ ⟨run, evt⟩) → (r.readEvent cfg run evt).1 = .ok none) ∧
    (∀ pre p post, ps = pre ++ p :: post → (∀ p ∈ pre, p.isEvent = true → p.key ≠ ⟨run, evt⟩) → p.isEvent = true → p.key = ⟨run, evt⟩ →
      ∃ e, (r.readEvent cfg run evt).1 = .ok (some e) ∧ delivery cfg name p = some (.event e)) := by
  obtain ⟨pr, rs, h1, h2⟩ := h.stream
  obtain ⟨a1, a2⟩ := search_layout cfg run evt name h2 hn {} pr.length
  obtain ⟨s', buf', b1, -⟩ := readRecords_at (fun st i => (st, isEventRecord i)) (searchProcessor cfg run evt) pr rs h2.ok r.buf {}
  unfold searchStep at a1 a2
  unfold Reader.readEvent
  rw [hm]
  simp only [Bool.false_eq_true, if_false]
  rw [h1, b1]
  constructor
  · intro hx
    obtain ⟨st', e1⟩ := a1 hx
    rw [e1]
  · intro pre p post e1 e2 e3 e4
    obtain ⟨st', rs', e0, e, c1, c2, c3, c4⟩ := a2 pre p post e1 e2 e3 e4
    refine ⟨e, ?_, c4⟩
    rw [c1]
    simp only [c2, c3]

end Lcio
