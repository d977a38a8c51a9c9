import Verif.Sio.BlockLemmas
/-
C09, C11, C12, C13: the blocks of a record, the object graph they hold, and termination.
-/
namespace Props
open Sio Spec

theorem data_of_record (name : List Byte) (opts : W32) (bs : List WBlock) (τ : Nat → Nat) :
    (bytesOf (withWords τ 0 (recordItems name opts bs))).drop (headerLen name) =
      bytesOf (withWords τ (headerLen name) (blocksItems bs)) := by
  have hl : (bytesOf (headerItems name opts (dataLen bs) (dataLen bs))).length = headerLen name := by
    rw [bytesOf_length]
    simp only [headerItems, List.map_cons, List.map_nil, List.sum_cons, List.sum_nil, itemLen_word, itemLen_chars, headerLen]
    omega
  unfold recordItems
  rw [withWords_append, bytesOf_append, List.drop_left', hl, Nat.zero_add]
  rw [withWords_bytes_length, hl]

theorem decodeAll_slots {α : Type} (φ : Nat → Nat) (decs : List (RBlock α)) (bs : List WBlock) (n : Nat) (r : Decoded α)
    (h : decodeAll φ decs bs n = some r) : ∀ a ∈ r.slots, a ∈ ptrsOf (blocksItems bs) := by
  have hp : ∀ b bs, ptrsOf (blocksItems (b :: bs)) = ptrsOf b.items ++ ptrsOf (blocksItems bs) := by
    intro b bs
    have : blocksItems (b :: bs) = hdrItems b ++ b.items ++ blocksItems bs := rfl
    rw [this, ptrsOf_append, ptrsOf_append]; rfl
  induction bs generalizing n r with
  | nil => cases h; intro a ha; cases ha
  | cons b bs ih =>
    intro a ha
    rw [hp]
    simp only [decodeAll] at h
    split at h
    · rw [Option.map_eq_some_iff] at h
      obtain ⟨r', h1, rfl⟩ := h
      exact List.mem_append_right _ (ih n r' h1 a ha)
    · split at h
      · cases h
      · rw [Option.map_eq_some_iff] at h
        obtain ⟨r', h1, rfl⟩ := h
        rcases List.mem_append.1 ha with h2 | h2
        · apply List.mem_append_left
          unfold ptrsOf at h2 ⊢
          exact (List.Sublist.filterMap _ (List.take_sublist _ _)).subset h2
        · exact List.mem_append_right _ (ih _ r' h1 a h2)

/-- **C09**. A record is written with any blocks and read back with any decoders whose calls match those of the
writers (blocks without a decoder stay unread). The decoders return what the specification `decodeAll` says, where a
pointer value `a` is represented by the word `φ a` until relocation. Relocation maps the word standing for `a`
to `target objects a`: null if `a` is null, if no object at address `a` was tagged in the record or if the block with its
tag was not decoded, else the object created for that tag. All pointer slots of the decoded blocks hold these values at
the end. -/
theorem C09_object_graph {α : Type} (name buf : List Byte) (bs : List WBlock) (opts : W32) (decs : List (RBlock α)) (next : Nat)
    (hw : Writable name bs) (hdec : ∀ φ, (decodeAll φ decs bs next).isSome) :
    ∃ info rec φ r ρ dev,
      writeRecord name buf bs opts = .ok (info, rec) ∧
      decodeAll φ decs bs next = some r ∧
      readBlocks (rec.drop info.headerLength) decs next = .ok (r.results, ρ, dev) ∧
      (∀ a ∈ ptrsOf (blocksItems bs), ρ (φ a) = target r.objects a) ∧
      dev.mem = r.slots.map (target r.objects) := by
  obtain ⟨num, τ, h1, h2⟩ := writeRecord_eq name buf bs opts hw.nameOk hw.blocks hw.size
  have hd := hdec (ptrWord num (tagsOf (blocksItems bs)))
  rw [Option.isSome_iff_exists] at hd
  obtain ⟨r, hr⟩ := hd
  obtain ⟨ρ, dev, g1, g2, g3, g4⟩ := readBlocks_eq decs bs (headerLen name) next num τ r (Numbered.data _ _ _ _ _ h2) hr hw.blocks
    (by have := hw.size; omega)
  refine ⟨_, _, _, r, ρ, dev, h1, hr, ?_, g2, ?_⟩
  · rw [data_of_record]; exact g1
  · rw [g3]
    apply List.map_congr_left
    intro a ha
    exact g2 a (decodeAll_slots _ _ _ _ _ hr a ha)

/-- A block with one object at address `self` that points at `other`, and its decoder. -/
def nodeBlock (name : List Byte) (self other : Nat) : WBlock := ⟨name, 7, [.ptr other, .arr 4 [self], .tag self]⟩
def nodeDecoder (name : List Byte) : RBlock (Nat × Nat) :=
  ⟨name, fun _ => do let o ← rNew; let p ← rPtr; let _ ← r32; rTag o; return (o, p)⟩

/-- Two objects pointing at each other, a third one pointing at the second and a fourth pointing at the third whose
block is not decoded. -/
def ring : List WBlock :=
  [nodeBlock (str "a") 1000 2000, nodeBlock (str "b") 2000 1000, nodeBlock (str "skipped") 3000 2000, nodeBlock (str "d") 4000 3000]
def ringDecoders : List (RBlock (Nat × Nat)) := [nodeDecoder (str "d"), nodeDecoder (str "b"), nodeDecoder (str "a")]

example : Writable (str "rec") ring ∧ ∀ φ, (decodeAll φ ringDecoders ring 1).isSome := by
  refine ⟨⟨by decide, ?_, by decide +kernel⟩, fun φ => rfl⟩
  intro b hb
  simp only [ring, List.mem_cons, List.not_mem_nil, or_false] at hb
  rcases hb with rfl | rfl | rfl | rfl <;> refine ⟨by decide, ?_, by decide +kernel⟩ <;>
    (intro i hi; simp only [nodeBlock, List.mem_cons, List.not_mem_nil, or_false] at hi; rcases hi with rfl | rfl | rfl <;> simp [fits])

/-- The pointers read back: object 1 to 2, 2 to 1, and 3 (the fourth one) to null. -/
example : ((writeRecord (str "rec") [1, 2, 3] ring 0).bind fun x =>
    (readBlocks (x.2.drop x.1.headerLength) ringDecoders 1).map fun y => (y.1.map (fun z => (z.1, z.2.1, y.2.1 z.2.2)), y.2.2.mem)) =
      .ok ([(str "a", 1, 2), (str "b", 2, 1), (str "d", 3, 0)], [2, 1, 0]) := by decide +kernel

/-- **C11**. Reading the data of a written record hands out its blocks (`handOut`): in order and once each, to the decoder
registered under their name, with the version they were written with and a device positioned at their payload. This holds
for arbitrary decoders, also ones that fail or read something else than was written. A block's payload is what its
writer wrote, with the words of pointers and tags (and only these) determined by relocation. -/
theorem C11_blocks_handed_out (name buf : List Byte) (bs : List WBlock) (opts : W32) (hw : Writable name bs) :
    ∃ info rec payloads, writeRecord name buf bs opts = .ok (info, rec) ∧
      payloads.length = bs.length ∧
      (∀ k, (hk : k < bs.length) → (hp : k < payloads.length) →
        ∃ σ base, payloads[k] = bytesOf (withWords σ base bs[k].items)) ∧
      ∀ (α : Type) (decs : List (RBlock α)) (next : Nat),
        (readBlocks (rec.drop info.headerLength) decs next).map (fun x => (x.1, x.2.2)) =
          (match handOut decs (bs.zip payloads) { buf := [], next := next } with
           | .error e => .error e
           | .ok (results, dev) => (dev.relocate).map fun dev => (results, dev)) := by
  obtain ⟨num, τ, h1, h2⟩ := writeRecord_eq name buf bs opts hw.nameOk hw.blocks hw.size
  have hsize := hw.size
  have hcount : bs.length ≤ dataLen bs := by
    clear h1 h2 hw hsize
    induction bs with
    | nil => simp
    | cons b bs ih =>
      have : dataLen (b :: bs) = blockLen b + dataLen bs := by
        unfold dataLen; rw [show blocksItems (b :: bs) = blockItems b ++ blocksItems bs from rfl, bytesOf_append, List.length_append, blockItems_length]
      have h2 : 16 ≤ blockLen b := by unfold blockLen blockHeaderLen; omega
      simp only [List.length_cons]; omega
  have hlen : ∀ base, (payloads τ base bs).length = bs.length := by
    clear h1 h2 hw hsize hcount
    induction bs with
    | nil => intro; rfl
    | cons b bs ih => intro base; simp [payloads, ih]
  refine ⟨_, _, payloads τ (headerLen name) bs, h1, hlen _, ?_, ?_⟩
  · clear h1 h2 hw hsize hcount hlen
    generalize headerLen name = base
    induction bs generalizing base with
    | nil => intro k hk; cases hk
    | cons b bs ih =>
      intro k hk hp
      cases k with
      | zero => exact ⟨τ, base + blockHeaderLen b, rfl⟩
      | succ k =>
        obtain ⟨σ, base', h⟩ := ih _ k (by simpa using hk) (by simpa [payloads] using hp)
        exact ⟨σ, base', by simpa [payloads] using h⟩
  · intro α decs next
    have := readBlocksLoop_handOut τ decs bs [] (headerLen name) { buf := [], next := next }
      ((bytesOf (withWords τ (headerLen name) (blocksItems bs))).length + 1) hw.blocks (by simp; omega)
      (by rw [withWords_bytes_length]; unfold dataLen at hcount; omega)
    simp only [List.nil_append, List.length_nil] at this
    rw [data_of_record]
    unfold readBlocks
    rw [this]
    simp only [bind, Except.bind, pure, Except.pure]
    generalize handOut decs _ _ = x
    cases x with
    | error e => rfl
    | ok y =>
      obtain ⟨res, dev⟩ := y
      simp only
      generalize dev.relocate = z
      cases z <;> rfl

/-- **C11**. Blocks without a decoder do not influence the decoding of the other blocks: the outcome is the same as if they
were not in the record. -/
theorem C11_skipped_blocks {α : Type} (decs : List (RBlock α)) (bs : List (WBlock × List Byte)) (dev : RDev) :
    handOut decs bs dev = handOut decs (bs.filter fun b => (decs.find? (fun d => d.name == b.1.name)).isSome) dev := by
  induction bs generalizing dev with
  | nil => rfl
  | cons b bs ih =>
    obtain ⟨b, pl⟩ := b
    simp only [List.filter_cons]
    cases hf : decs.find? (fun d => d.name == b.name) with
    | none => simp only [handOut, hf, Option.isSome_none, Bool.false_eq_true, if_false]; exact ih dev
    | some d => simp only [handOut, hf, Option.isSome_some, if_true, ih]


/-- **C12**. The block directory of a written record lists the blocks that were written, in order, with their names, versions
and payload lengths. -/
theorem C12_directory (name buf : List Byte) (bs : List WBlock) (opts : W32) (hw : Writable name bs) :
    ∃ info rec, writeRecord name buf bs opts = .ok (info, rec) ∧
      readBlockInfos (rec.drop info.headerLength) = .ok (directory 0 bs) := by
  obtain ⟨num, τ, h1, h2⟩ := writeRecord_eq name buf bs opts hw.nameOk hw.blocks hw.size
  refine ⟨_, _, h1, ?_⟩
  have hsize := hw.size
  have hcount : bs.length ≤ dataLen bs := by
    clear h1 h2 hw hsize
    induction bs with
    | nil => simp
    | cons b bs ih =>
      have : dataLen (b :: bs) = blockLen b + dataLen bs := by
        unfold dataLen; rw [show blocksItems (b :: bs) = blockItems b ++ blocksItems bs from rfl, bytesOf_append, List.length_append, blockItems_length]
      have h2 : 16 ≤ blockLen b := by unfold blockLen blockHeaderLen; omega
      simp only [List.length_cons]; omega
  rw [data_of_record]
  unfold readBlockInfos
  have := readBlockInfosLoop_eq τ bs [] (headerLen name) ((bytesOf (withWords τ (headerLen name) (blocksItems bs))).length + 1)
    hw.blocks (by simp; omega) (by rw [withWords_bytes_length]; unfold dataLen at hcount; omega)
  simpa using this

/-- **C12**. The ranges in a directory tile the record data: they start at 0, each one starts where the previous one ends, the
last one ends at the end of the data, and header and payload of each add up to its length. -/
theorem C12_tiling (bs : List WBlock) :
    (directory 0 bs).map (·.recordStart) ++ [dataLen bs] = 0 :: (directory 0 bs).map (·.recordEnd) ∧
    ∀ i ∈ directory 0 bs, i.recordStart + i.headerLength + i.dataLength = i.recordEnd := by
  have key : ∀ s, (directory s bs).map (·.recordStart) ++ [s + dataLen bs] = s :: (directory s bs).map (·.recordEnd) ∧
    ∀ i ∈ directory s bs, i.recordStart + i.headerLength + i.dataLength = i.recordEnd := by
    induction bs with
    | nil => intro s; exact ⟨rfl, fun i hi => by cases hi⟩
    | cons b bs ih =>
      intro s
      have hd : dataLen (b :: bs) = blockLen b + dataLen bs := by
        unfold dataLen; rw [show blocksItems (b :: bs) = blockItems b ++ blocksItems bs from rfl, bytesOf_append, List.length_append, blockItems_length]
      obtain ⟨i1, i2⟩ := ih (s + blockLen b)
      refine ⟨?_, ?_⟩
      · simp only [directory, List.map_cons, List.cons_append]
        rw [hd, ← Nat.add_assoc, i1]
      · intro i hi
        simp only [directory, List.mem_cons] at hi
        rcases hi with rfl | hi
        · simp only [blockLen]; omega
        · exact i2 i hi
  have := key 0
  simpa using this

example : directory 0 (ring.take 2) =
    [⟨0, 32, 20, 7, 12, str "a"⟩, ⟨32, 64, 20, 7, 12, str "b"⟩] := by decide

/-- **C12**. Whatever the bytes are (below 4 GiB): when the block directory of a record can be read, its ranges tile the record: they start at 0, each one starts where the
previous one ends, and the last one ends with the last byte, so no byte is left over. -/
theorem C12_nothing_left (rec : List Byte) (hlen : rec.length < 2 ^ 32) (infos : List BlockInfo) (h : readBlockInfos rec = .ok infos) :
    infos.map (·.recordStart) ++ [rec.length] = 0 :: infos.map (·.recordEnd) := by
  have key : ∀ fuel pos infos, pos ≤ rec.length → readBlockInfosLoop rec fuel pos = .ok infos →
      infos.map (·.recordStart) ++ [rec.length] = pos :: infos.map (·.recordEnd) := by
    intro fuel
    induction fuel with
    | zero =>
      intro pos infos hp h
      unfold readBlockInfosLoop at h
      split at h
      · cases h
        have : pos = rec.length := by omega
        simp [this]
      · cases h
    | succ fuel ih =>
      intro pos infos hp h
      unfold readBlockInfosLoop at h
      split at h
      · cases h
        have : pos = rec.length := by omega
        simp [this]
      · simp only [bind, Except.bind] at h
        split at h
        · cases h
        · rename_i x hx
          obtain ⟨info, span⟩ := x
          obtain ⟨e1, e2, e3, -⟩ := extractBlock_end rec pos info span hlen hx
          have e4 : info.recordStart = pos := by
            unfold extractBlock at hx
            rw [if_neg (by omega)] at hx
            simp only [bind, Except.bind, pure, Except.pure] at hx
            repeat' split at hx
            all_goals try (cases hx; done)
            all_goals
              simp only [Except.ok.injEq, Prod.mk.injEq] at hx
              rw [← hx.1]
              exact Nat.mod_eq_of_lt (by omega)
          simp only at h
          split at h
          · cases h
          · rename_i rest hrest
            cases h
            have := ih _ _ e2 hrest
            rw [List.map_cons, List.map_cons, List.cons_append, this, e4]
  exact key _ 0 infos (by omega) h

/-- One byte is not a block. -/
example : readBlockInfos [0] = .error .invalidArgument := by decide +kernel

example : readBlockInfos [0, 0, 0, 20, 0xde, 0xad, 0xbe, 0xef, 0, 0, 0, 7, 0, 0, 0, 4, 97, 98, 99, 100] = .ok [⟨0, 20, 20, 7, 0, str "abcd"⟩] := by decide +kernel

example : readBlockInfos [0, 0, 0, 20, 0xde, 0xad, 0xbe, 0xef, 0, 0, 0, 7, 0, 0, 0, 4, 97, 98, 99, 100, 0] = .error .invalidArgument := by decide +kernel

/-- **C13**, what holds: on any bytes (below 4 GiB), reading the block directory and reading the blocks with any decoders that terminate ends,
unless the bytes contain a block of length zero: a zero word directly followed by the block marker. Missing: blocks of
length zero. -/
theorem C13_terminates_partial (rec : List Byte) (hlen : rec.length < 2 ^ 32)
    (hz : ∀ p, p < rec.length → ¬ (wordAt rec p = 0 ∧ wordAt rec (p + 4) = 0xdeadbeef)) :
    readBlockInfos rec ≠ .error .diverge ∧
    ∀ (α : Type) (decs : List (RBlock α)), (∀ d ∈ decs, ∀ v dev, (d.read v).run dev ≠ .error .diverge) →
      ∀ next, readBlocks rec decs next ≠ .error .diverge := by
  have step : ∀ p info span, extractBlock rec p = .ok (info, span) → p < info.recordEnd ∧ info.recordEnd ≤ rec.length := by
    intro p info span h
    obtain ⟨h1, h2, h3, h4⟩ := extractBlock_end rec p info span hlen h
    refine ⟨?_, h2⟩
    have := hz p h3
    by_cases hw : wordAt rec p = 0
    · exact absurd ⟨hw, h4⟩ this
    · omega
  constructor
  · have key : ∀ fuel p, rec.length < fuel + p → readBlockInfosLoop rec fuel p ≠ .error .diverge := by
      intro fuel
      induction fuel with
      | zero =>
        intro p hp
        unfold readBlockInfosLoop
        rw [if_pos (by omega)]
        intro h; cases h
      | succ fuel ih =>
        intro p hp
        unfold readBlockInfosLoop
        split
        · intro h; cases h
        · simp only [bind, Except.bind]
          split
          · rename_i e he
            intro h; cases h
            exact extractBlock_ne_diverge rec p he
          · rename_i v hv
            obtain ⟨info, span⟩ := v
            have := step p info span hv
            have := ih info.recordEnd (by omega)
            simp only
            split
            · rename_i e he
              intro h; cases h
              exact this he
            · intro h; cases h
    exact key _ _ (by omega)
  · intro α decs hdec next
    have key : ∀ fuel p dev, rec.length < fuel + p → MemOk 0 dev →
        readBlocksLoop rec decs fuel p dev ≠ .error .diverge ∧
        ∀ x, readBlocksLoop rec decs fuel p dev = .ok x → MemOk 0 x.2 := by
      intro fuel
      induction fuel with
      | zero =>
        intro p dev hp hm
        unfold readBlocksLoop
        rw [if_pos (by omega)]
        exact ⟨fun h => (by cases h), fun x h => by cases h; exact hm⟩
      | succ fuel ih =>
        intro p dev hp hm
        unfold readBlocksLoop
        split
        · exact ⟨fun h => (by cases h), fun x h => by cases h; exact hm⟩
        · simp only [bind, Except.bind]
          cases he : extractBlock rec p with
          | error e =>
            refine ⟨?_, fun x h => by cases h⟩
            intro h; cases h
            exact extractBlock_ne_diverge rec p he
          | ok v =>
            obtain ⟨info, span⟩ := v
            have := step p info span he
            have ih' := fun dev => ih info.recordEnd dev (by omega)
            simp only
            cases hf : decs.find? (fun b => b.name == info.name) with
            | none => exact ih' dev hm
            | some b =>
              simp only
              cases hs : RDev.seek { dev with buf := span } info.headerLength with
              | error e =>
                refine ⟨?_, fun x h => by cases h⟩
                intro h; cases h
                unfold RDev.seek at hs
                split at hs <;> cases hs
              | ok dev1 =>
                have hm1 : MemOk 0 dev1 := by
                  unfold RDev.seek at hs
                  split at hs
                  · cases hs
                  · cases hs; exact MemOk_congr 0 dev _ hm rfl rfl
                simp only
                cases hr : (b.read info.version).run dev1 with
                | error e =>
                  have := hdec b (List.mem_of_find?_eq_some hf) info.version dev1
                  rw [hr] at this
                  simp only [rethrowing]
                  refine ⟨?_, fun x h => by cases h⟩
                  intro h
                  have : e ≠ .diverge := fun h => this (by rw [h])
                  cases e <;> simp_all [rethrow]
                | ok y =>
                  obtain ⟨a, dev2⟩ := y
                  simp only [rethrowing]
                  have i := ih' dev2 (run_MemOk 0 _ _ _ _ hr hm1)
                  cases hl : readBlocksLoop rec decs fuel info.recordEnd dev2 with
                  | error e =>
                    rw [hl] at i
                    refine ⟨?_, fun x h => by cases h⟩
                    intro h; cases h
                    exact i.1 rfl
                  | ok z =>
                    obtain ⟨rest, dev3⟩ := z
                    refine ⟨fun h => (by cases h), fun x h => ?_⟩
                    cases h
                    exact i.2 (rest, dev3) hl
    have k := key (rec.length + 1) 0 { buf := [], next := next } (by omega) (by simp [MemOk, SortedMulti])
    unfold readBlocks
    simp only [bind, Except.bind]
    cases hl : readBlocksLoop rec decs (rec.length + 1) 0 { buf := [], next := next } with
    | error e => rw [hl] at k; intro h; cases h; exact k.1 rfl
    | ok z =>
      obtain ⟨rest, dev⟩ := z
      simp only
      rw [RDev.relocate_eq dev (k.2 _ hl)]
      intro h; cases h

/-- The hypothesis holds for a damaged block list: a good block followed by bytes that are no block. -/
example : let bytes : List Byte := [0, 0, 0, 20, 0xde, 0xad, 0xbe, 0xef, 0, 0, 0, 1, 0, 0, 0, 1, 97, 0, 0, 0, 1, 2]
    (∀ p, p < bytes.length → ¬ (wordAt bytes p = 0 ∧ wordAt bytes (p + 4) = 0xdeadbeef)) ∧
      readBlockInfos bytes = .error .invalidArgument := by decide

/-- A block with length word zero. -/
def zeroBlock : List Byte := [0, 0, 0, 0, 0xde, 0xad, 0xbe, 0xef, 0, 0, 0, 1, 0, 0, 0, 1, 97, 0, 0, 0]

/-- **C13 fails**: on the 20 bytes of a block whose length word is zero both loops go on forever: no number of iterations is
enough. -/
theorem C13_fails_for_zero_length (fuel : Nat) :
    readBlockInfosLoop zeroBlock fuel 0 = .error .diverge ∧
    readBlocksLoop zeroBlock ([] : List (RBlock Unit)) fuel 0 { buf := [] } = .error .diverge := by
  have he : extractBlock zeroBlock 0 = .ok (⟨0, 0, 20, 1, 2 ^ 32 - 20, [97]⟩, []) := by decide
  induction fuel with
  | zero => exact ⟨rfl, rfl⟩
  | succ fuel ih =>
    constructor
    · unfold readBlockInfosLoop
      rw [if_neg (by decide), he]
      simp only [bind, Except.bind, ih.1]
    · unfold readBlocksLoop
      rw [if_neg (by decide), he]
      simp only [bind, Except.bind, List.find?_nil, ih.2]

end Props
