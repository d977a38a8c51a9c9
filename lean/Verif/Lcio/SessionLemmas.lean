import Verif.Lcio.WriterLemmas
/-
What is in a file after sessions of a writer.
-/
namespace Lcio
open Sio Spec

/-! ## The records for direct access -/

/-- A record with a random access object. -/
structure IsAccess (r : Rec) (a : RandomAccess) : Prop where
  ok : r.Ok
  named : r.name = accessName
  plain : isCompressed r.opts = false
  len : r.data.length = 96
  read : ∃ ρ d, readBlocks r.data [accessDecoder] = .ok ([(accessName, a)], ρ, d)

/-- The entries of a map as they come back from its index. -/
def asRead (m : RunEventMap) : List (RunEvent × W64) :=
  m.map.map (indexEntry m.oneRun m.longOffset m.minRunEvent.run (m.getPosition m.minRunEvent))

/-- A record with the index for a map. -/
structure IsIndex (r : Rec) (m : RunEventMap) : Prop where
  ok : r.Ok
  named : r.name = indexName
  plain : isCompressed r.opts = false
  read : ∃ ρ d, readBlocks r.data [indexDecoder] = .ok ([(indexName, asRead m)], ρ, d)

theorem storeLoad_inv {α : Type} {name buf : Str} {opts : W32} {bs : List WBlock} {decs : List (RBlock α)} {next : Nat} {rs : List (Str × α)}
    (h : storeLoad name buf opts bs decs next = .ok rs) {info : RecordInfo} {bytes : List Byte} (hw : writeRecord name buf bs opts = .ok (info, bytes)) :
    ∃ ρ d, readBlocks (bytes.drop info.headerLength) decs next = .ok (rs, ρ, d) := by
  unfold storeLoad at h
  rw [hw] at h
  simp only at h
  cases h1 : readBlocks (bytes.drop info.headerLength) decs next with
  | error e => rw [h1] at h; cases h
  | ok x => obtain ⟨a, b, c⟩ := x; rw [h1] at h; cases h; exact ⟨b, c, rfl⟩

/-- A codec that does nothing. -/
def idCodec : Codec := { compress := fun d => .ok d, uncompress := fun d _ => .ok d }

theorem idCodec_lossless : Lossless idCodec := by
  intro d c h; cases h; rfl

theorem over_writeOne (m : RaMgr) (A T : List Byte) (name : Str) (b : WBlock) (hw : Writable name [b]) :
    ∃ (r : Rec) (buf : List Byte), RecOf idCodec r name m.buf [b] ∧ isCompressed r.opts = false ∧
      m.writeOne (over A T) name b = .ok (r.info A.length, over (A ++ r.wire) (T.drop r.wire.length), { m with buf := buf }) := by
  obtain ⟨r, h1, h2, h3⟩ := over_writeJob idCodec idCodec_lossless m.buf A T name [b] false ⟨hw, by intro h; cases h⟩
  refine ⟨r, r.header ++ r.data, h1, h2, ?_⟩
  unfold writeJob at h3
  unfold RaMgr.writeOne
  simp only [bind, Except.bind] at h3
  cases h4 : writeRecord name m.buf [b] 0 with
  | error e => rw [h4] at h3; cases h3
  | ok x =>
    obtain ⟨info, bytes⟩ := x
    rw [h4] at h3
    simp only [Bool.false_eq_true, if_false, pure, Except.pure, Except.ok.injEq, Prod.mk.injEq] at h3
    simp only
    rw [h3.1, h3.2.2, h3.2.1]

theorem over_writeAccess (m : RaMgr) (A T : List Byte) (a : RandomAccess) :
    ∃ (r : Rec) (buf : List Byte), IsAccess r a ∧
      m.writeOne (over A T) accessName a.block = .ok (r.info A.length, over (A ++ r.wire) (T.drop r.wire.length), { m with buf := buf }) := by
  obtain ⟨r, buf, h1, h2, h3⟩ := over_writeOne m A T accessName a.block (access_writable a)
  obtain ⟨info, bytes, h4, h5⟩ := h1.plain
  unfold plainOf at h5
  rw [if_neg (by rw [h2]; simp)] at h5
  rw [Except.ok.injEq] at h5
  refine ⟨r, buf, ⟨h1.ok, h1.named, h2, by rw [h1.len h2, access_dataLen], ?_⟩, h3⟩
  rw [h5]
  refine storeLoad_inv (name := accessName) (buf := m.buf) (opts := 0) (bs := [a.block]) ?_ h4
  apply storeLoad_plain accessName m.buf 0 a.block accessDecoder 1 a rfl (access_writable a)
  intro φ n
  have := runI_access φ a [] n []
  rw [List.append_nil] at this
  exact this

/-! ## The index can be written -/

theorem omAssign_length {K V : Type} (lt : K → K → Bool) (k : K) (v : V) (m : List (K × V)) : (omAssign lt k v m).1.length ≤ m.length + 1 := by
  induction m with
  | nil => simp [omAssign]
  | cons e m ih =>
    obtain ⟨k', v'⟩ := e
    unfold omAssign
    split
    · simp
    · split <;> simp
      exact ih

theorem omAssign_ne {K V : Type} (lt : K → K → Bool) (k : K) (v : V) (m : List (K × V)) : (omAssign lt k v m).1 ≠ [] := by
  cases m with
  | nil => simp [omAssign]
  | cons e m =>
    obtain ⟨k', v'⟩ := e
    unfold omAssign
    split
    · simp
    · split <;> simp

theorem addAll_length (es : List (RunEvent × W64)) (m : RunEventMap) : (m.addAll es).map.length ≤ m.map.length + es.length := by
  rw [addAll_map]
  generalize m.map = l
  induction es generalizing l with
  | nil => simp
  | cons e es ih =>
    have h1 := ih (omAssign RunEvent.lt e.1 e.2 l).1
    have h2 := omAssign_length RunEvent.lt e.1 e.2 l
    simp only [List.foldl_cons, List.length_cons]
    omega

theorem addAll_ne (es : List (RunEvent × W64)) (m : RunEventMap) (h : es ≠ []) : (m.addAll es).map ≠ [] := by
  rw [addAll_map]
  have : ∀ (es : List (RunEvent × W64)) (l : List (RunEvent × W64)), l ≠ [] → es.foldl (fun m e => (omAssign RunEvent.lt e.1 e.2 m).1) l ≠ [] := by
    intro es
    induction es with
    | nil => intro l hl; exact hl
    | cons e es ih => intro l _; exact ih _ (omAssign_ne _ _ _ _)
  cases es with
  | nil => exact absurd rfl h
  | cons e es => exact this es _ (omAssign_ne _ _ _ _)

/-- Differences of run numbers can be computed. -/
def RunsClose (keys : List RunEvent) : Prop := ∀ a ∈ keys, ∀ b ∈ keys, BitVec.ssubOverflow a.run b.run = false

theorem minRunEvent_mem (m : RunEventMap) (h : m.map ≠ []) : m.minRunEvent ∈ m.map.map (·.1) := by
  unfold RunEventMap.minRunEvent
  cases hm : m.map with
  | nil => exact absurd hm h
  | cons e l => simp

theorem index_ok (l : List (RunEvent × W64)) (hr : RunsClose (l.map (·.1))) :
    ∀ e ∈ (({} : RunEventMap).addAll l).map, BitVec.ssubOverflow e.1.run (({} : RunEventMap).addAll l).minRunEvent.run = false := by
  have hinv := addAll_inv l {} [] MapInv.empty
  intro e he
  apply hr
  · have := hinv.keys e.1 (List.mem_map.2 ⟨e, he, rfl⟩); simpa using this
  · have := hinv.keys _ (minRunEvent_mem _ (by intro h; rw [h] at he; cases he)); simpa using this

theorem indexEntry_items (m : RunEventMap) (h : ∀ e ∈ m.map, BitVec.ssubOverflow e.1.run m.minRunEvent.run = false) (e : RunEvent × W64) (he : e ∈ m.map) :
    (∀ i ∈ ((if m.oneRun then [] else if BitVec.ssubOverflow e.1.run m.minRunEvent.run then [.bad] else w32 (e.1.run - m.minRunEvent.run)) ++
      w32 e.1.evt ++ (if m.longOffset then w64 (e.2 - m.getPosition m.minRunEvent) else w32 ((e.2 - m.getPosition m.minRunEvent).setWidth 32))), fits i) ∧
    (bytesOf ((if m.oneRun then [] else if BitVec.ssubOverflow e.1.run m.minRunEvent.run then [.bad] else w32 (e.1.run - m.minRunEvent.run)) ++
      w32 e.1.evt ++ (if m.longOffset then w64 (e.2 - m.getPosition m.minRunEvent) else w32 ((e.2 - m.getPosition m.minRunEvent).setWidth 32)))).length ≤ 16 := by
  rw [h e he]
  cases m.oneRun <;> cases m.longOffset <;>
    simp [w32, w64, fits, bytesOf_length, itemLen_one4, itemLen_one8]

theorem index_writable (l : List (RunEvent × W64)) (hl : l.length < 2 ^ 27) (hr : RunsClose (l.map (·.1))) :
    Writable indexName [(({} : RunEventMap).addAll l).block] := by
  have h1 := index_ok l hr
  have h2 := addAll_length l {}
  generalize ({} : RunEventMap).addAll l = m at *
  have h3 : m.map.length < 2 ^ 27 := by simp at h2; omega
  have h4 : (∀ i ∈ m.write, fits i) ∧ (bytesOf m.write).length ≤ 20 + 16 * m.map.length := by
    unfold RunEventMap.write
    simp only
    have key : ∀ l' : List (RunEvent × W64), (∀ e ∈ l', e ∈ m.map) →
        (∀ i ∈ l'.flatMap (fun e => (if m.oneRun then [] else if BitVec.ssubOverflow e.1.run m.minRunEvent.run then [.bad] else w32 (e.1.run - m.minRunEvent.run)) ++
          w32 e.1.evt ++ (if m.longOffset then w64 (e.2 - m.getPosition m.minRunEvent) else w32 ((e.2 - m.getPosition m.minRunEvent).setWidth 32))), fits i) ∧
        (bytesOf (l'.flatMap (fun e => (if m.oneRun then [] else if BitVec.ssubOverflow e.1.run m.minRunEvent.run then [.bad] else w32 (e.1.run - m.minRunEvent.run)) ++
          w32 e.1.evt ++ (if m.longOffset then w64 (e.2 - m.getPosition m.minRunEvent) else w32 ((e.2 - m.getPosition m.minRunEvent).setWidth 32))))).length ≤ 16 * l'.length := by
      intro l'
      induction l' with
      | nil => intro _; simp [bytesOf]
      | cons e l' ih =>
        intro hl'
        obtain ⟨a1, a2⟩ := indexEntry_items m h1 e (hl' e (by simp))
        obtain ⟨b1, b2⟩ := ih (fun x hx => hl' x (by simp [hx]))
        rw [List.flatMap_cons]
        refine ⟨?_, ?_⟩
        · intro i hi
          rcases List.mem_append.1 hi with h | h
          · exact a1 i h
          · exact b1 i h
        · rw [bytesOf_append, List.length_append, List.length_cons]
          omega
    obtain ⟨k1, k2⟩ := key m.map (fun _ h => h)
    refine ⟨?_, ?_⟩
    · intro i hi
      rcases List.mem_append.1 hi with h | h
      · simp only [w32, w64, List.cons_append, List.nil_append, List.mem_cons, List.not_mem_nil, or_false] at h
        rcases h with rfl | rfl | rfl | rfl <;> simp [fits]
      · exact k1 i h
    · rw [bytesOf_append, List.length_append]
      have : (bytesOf (w32 ((if m.oneRun then 1 else 0) ||| (if m.longOffset then 2 else 0)) ++ w32 m.minRunEvent.run ++ w64 (m.getPosition m.minRunEvent) ++
          w32 (BitVec.ofNat 32 m.map.length))).length = 20 := by
        simp [w32, w64, bytesOf_length, itemLen_one4, itemLen_one8]
      rw [this]; omega
  have h5 : blockLen m.block < 2 ^ 31 + 100 := by
    unfold blockLen
    have : m.block.items = m.write := rfl
    rw [this]
    have e : blockHeaderLen m.block = 28 := by
      show 16 + indexName.length + padding indexName.length = 28
      decide
    omega
  refine ⟨by decide, ?_, ?_⟩
  · intro b hb
    rw [List.mem_singleton] at hb
    subst hb
    refine ⟨?_, h4.1, by omega⟩
    show indexName.length + 3 < 2 ^ 32
    decide
  · unfold dataLen
    rw [show blocksItems [m.block] = blockItems m.block ++ [] from rfl, List.append_nil, blockItems_length]
    have : headerLen indexName = 36 := by decide
    omega

theorem over_writeIndex (m : RaMgr) (A T : List Byte) (l : List (RunEvent × W64)) (hl : l.length < 2 ^ 27) (hr : RunsClose (l.map (·.1)))
    (hm : m.map = ({} : RunEventMap).addAll l) :
    ∃ (r : Rec) (buf : List Byte), IsIndex r m.map ∧
      m.writeOne (over A T) indexName m.map.block = .ok (r.info A.length, over (A ++ r.wire) (T.drop r.wire.length), { m with buf := buf }) := by
  have hw := index_writable l hl hr
  have hk := index_ok l hr
  have hlen := addAll_length l {}
  rw [← hm] at hw hk hlen
  obtain ⟨r, buf, h1, h2, h3⟩ := over_writeOne m A T indexName m.map.block hw
  obtain ⟨info, bytes, h4, h5⟩ := h1.plain
  unfold plainOf at h5
  rw [if_neg (by rw [h2]; simp)] at h5
  rw [Except.ok.injEq] at h5
  refine ⟨r, buf, ⟨h1.ok, h1.named, h2, ?_⟩, h3⟩
  rw [h5]
  refine storeLoad_inv (name := indexName) (buf := m.buf) (opts := 0) (bs := [m.map.block]) ?_ h4
  apply storeLoad_plain indexName m.buf 0 m.map.block indexDecoder 1 _ rfl hw
  intro φ n
  have := runI_index φ m.map (by simp at hlen; omega) (fun _ => hk) [] n []
  rw [List.append_nil] at this
  exact this

end Lcio
