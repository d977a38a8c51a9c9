import Verif.Util.CellID
import Verif.Util.TextLemmas
import Verif.Props.Bits
import Verif.Props.Flags
import Verif.Props.Events
import Verif.Spec.Decide
import Verif.Lcio.Float
/-
Properties of field descriptions and cell IDs: C50, C51.
-/
namespace Props
open Sio Lcio Spec Util

/-! ## C50 -/

/-- **C50**, layouts. The text made of the descriptions of fields constructs the layout that they describe, for every supported layout. -/
theorem C50_describes (ds : List FieldDesc) (h : GoodLayout (placed 0 ds)) :
    ∃ b, BitField.make (commas (ds.map FieldDesc.text)) = .ok b ∧ layout b = placed 0 ds := by
  have names : ∀ n, ∀ ds : List FieldDesc, (∀ e ∈ placed n ds, GoodName e.name) → ∀ d ∈ ds, GoodName d.name := by
    intro n ds
    induction ds generalizing n with
    | nil => intro _ d hd; cases hd
    | cons d ds ih =>
      intro hh x hx
      simp only [placed, List.mem_cons, forall_eq_or_imp] at hh
      rcases List.mem_cons.1 hx with rfl | hx
      · exact hh.1
      · exact ih _ hh.2 x hx
  have good : ∀ e ∈ placed 0 ds, GoodName e.name ∧ e.offset ≤ 63 ∧ e.width ≤ 64 := by
    intro e he
    obtain ⟨h1, h2, h3, h4, h5, h6⟩ := h.1 e he
    exact ⟨⟨h1, h2, h3⟩, h4, by omega⟩
  rw [make_text ds good (names 0 ds fun e he => (good e he).1)]
  obtain ⟨b, e1, e2⟩ := addAll_good (placed 0 ds) h {} Made.empty (fun f hf => by cases hf)
  exact ⟨b, e1, by rw [e2]; rfl⟩

/-- A description that gives the first bit of every field. -/
def descOf (f : Util.Field) : FieldDesc := ⟨f.name, some f.offset, f.width, f.signed⟩

theorem descOf_text (f : Util.Field) : (descOf f).text = f.description := by
  unfold FieldDesc.text descOf Field.description
  simp [List.append_assoc]

theorem placed_descOf (n : Nat) (fs : List Util.Field) : placed n (fs.map descOf) = fs.map fun f => ⟨f.name, f.offset, f.width, f.signed⟩ := by
  induction fs generalizing n with
  | nil => rfl
  | cons f fs ih => simp only [List.map_cons, placed, ih]; rfl

/-- **C50**. The description of any bit field that was constructed, whatever its content, constructs the same bit field: fields with the same names, offsets, widths and signs. -/
theorem C50_reproduces (init : Str) (b : BitField) (hb : BitField.make init = .ok b) (v : W64) :
    BitField.make (b.setValue v).fieldDescription = .ok b := by
  have m := (make_made hb).1
  obtain ⟨fs, e1, e2, e3⟩ := initLoop_addAll (o := 0) (b := {}) (fun d hd => (tokens_sound 44 init (fun _ => True) (fun _ _ => trivial) d hd).1) hb
  have e1 : b.fields = fs := by rw [e1]; rfl
  have hd : (b.setValue v).fieldDescription = commas ((fs.map descOf).map FieldDesc.text) := by
    unfold BitField.fieldDescription BitField.setValue
    simp only [e1, List.map_map]
    congr 1
    apply List.map_congr_left
    intro f _
    exact (descOf_text f).symm
  rw [hd, make_text, placed_descOf]
  · rw [← e2, List.map_map]; rfl
  · rw [placed_descOf]
    intro e he
    obtain ⟨f, hf, rfl⟩ := List.mem_map.1 he
    have fok := m.fields f (e1 ▸ hf)
    have h1 := fok.off
    have h2 := fok.wid
    exact ⟨e3 f hf, h1, by simp only; omega⟩
  · intro d hd
    obtain ⟨f, hf, rfl⟩ := List.mem_map.1 hd
    exact e3 f hf

/-- The description of the layout in the documentation. -/
example : (BitField.make calo).toOption.map BitField.fieldDescription = some (str "layer:0:7,system:7:-3,barrel:10:3,theta:32:11,phi:43:11") := by decide +kernel

/-- A layout as in the first theorem: fields out of order, one signed. -/
example : GoodLayout (placed 0 [⟨str "theta", some 32, 11, false⟩, ⟨str "phi", none, 11, true⟩, ⟨str "layer", some 0, 7, false⟩]) := by
  constructor
  · unfold GoodEntry; decide
  · simp only [placed, List.pairwise_cons, List.mem_cons, List.not_mem_nil, or_false, forall_eq_or_imp, forall_eq, Option.getD]
    refine ⟨⟨?_, ?_⟩, ?_, ?_, ?_⟩
    all_goals first | (intro k h1 h2; omega) | simp

/-! ## C51 -/

theorem highestBit_ge (fs : List Util.Field) (n : Nat) : n ≤ fs.foldl (fun hb f => if hb < f.offset + f.width then f.offset + f.width else hb) n ∧
    ∀ f ∈ fs, f.offset + f.width ≤ fs.foldl (fun hb f => if hb < f.offset + f.width then f.offset + f.width else hb) n := by
  induction fs generalizing n with
  | nil => exact ⟨Nat.le_refl _, fun _ h => by cases h⟩
  | cons f fs ih =>
    rw [List.foldl_cons]
    obtain ⟨h1, h2⟩ := ih (if n < f.offset + f.width then f.offset + f.width else n)
    refine ⟨?_, ?_⟩
    · refine Nat.le_trans ?_ h1; split <;> omega
    · intro g hg
      rcases List.mem_cons.1 hg with rfl | hg
      · refine Nat.le_trans ?_ h1; split <;> omega
      · exact h2 g hg

/-- Assignments change only the value, and only within the fields. -/
theorem assign_inside {init : Str} {b : BitField} (hb : BitField.make init = .ok b) (as : List (Nat × W64)) (v : W64)
    (hv : ∀ k, k < 64 → v.getLsbD k = true → ∃ f ∈ b.fields, f.offset ≤ k ∧ k < f.offset + f.width) :
    ∃ v', assignAll (b.setValue v) as = b.setValue v' ∧ ∀ k, k < 64 → v'.getLsbD k = true → ∃ f ∈ b.fields, f.offset ≤ k ∧ k < f.offset + f.width := by
  have m := (make_made hb).1
  induction as generalizing v with
  | nil => exact ⟨v, rfl, hv⟩
  | cons a as ih =>
    obtain ⟨i, x⟩ := a
    simp only [assignAll]
    unfold BitField.set
    have e : (b.setValue v).fields = b.fields := rfl
    rw [e]
    cases hf : b.fields[i]? with
    | none => exact ih v hv
    | some f =>
      simp only
      have fok := m.fields f (List.mem_of_getElem? hf)
      have ev : (b.setValue v).value = v := rfl
      rw [ev]
      cases ha : f.assign v x with
      | error e => exact ih v hv
      | ok v' =>
        refine ih v' ?_
        unfold Field.assign at ha
        split at ha
        · cases ha
        · simp only [Except.ok.injEq] at ha
          subst ha
          intro k hk hkt
          rw [put_bit fok _ _ _ hk] at hkt
          split at hkt
          · rename_i hc; exact ⟨f, List.mem_of_getElem? hf, hc⟩
          · exact hv k hk hkt

theorem and_ones (x : W32) : x &&& 0xffffffff = x := by
  have : (0xffffffff : W32) = BitVec.allOnes 32 := rfl
  rw [this, BitVec.and_allOnes]

/-- The words of a value, put together again. -/
theorem words_join (v : W64) : (((v.setWidth 32 &&& (0xffffffff : W32)).setWidth 64) ||| ((((v >>> 32).setWidth 32 : W32).signExtend 64) <<< 32)) = v := by
  rw [and_ones]
  apply BitVec.eq_of_getLsbD_eq
  intro k hk
  simp only [BitVec.getLsbD_or, BitVec.getLsbD_setWidth, BitVec.getLsbD_shiftLeft, BitVec.getLsbD_signExtend, BitVec.getLsbD_ushiftRight, hk, decide_true, Bool.true_and]
  by_cases h : k < 32
  · simp [h]
  · have h1 : k - 32 < 64 := by omega
    have h2 : k - 32 < 32 := by omega
    have h3 : 32 + (k - 32) = k := by omega
    simp [h, h1, h2, h3]

theorem join_words (id0 id1 : W32) : ((((id0 &&& (0xffffffff : W32)).setWidth 64) ||| ((id1.signExtend 64) <<< 32) : W64)).setWidth 32 = id0 ∧
    (((((id0 &&& (0xffffffff : W32)).setWidth 64) ||| ((id1.signExtend 64) <<< 32) : W64)) >>> 32).setWidth 32 = id1 := by
  rw [and_ones]
  constructor
  · apply BitVec.eq_of_getLsbD_eq
    intro k hk
    have h1 : k < 64 := by omega
    simp only [BitVec.getLsbD_or, BitVec.getLsbD_setWidth, BitVec.getLsbD_shiftLeft, BitVec.getLsbD_signExtend, hk, h1, decide_true, Bool.true_and, Bool.not_true, Bool.false_and, Bool.or_false]
  · apply BitVec.eq_of_getLsbD_eq
    intro k hk
    have h1 : k < 64 := by omega
    have h2 : ¬ 32 + k < 32 := by omega
    have h3 : 32 + k < 64 := by omega
    have h4 : 32 + k - 32 = k := by omega
    have h5 : id0.getLsbD (32 + k) = false := BitVec.getLsbD_of_ge _ _ (by omega)
    simp only [BitVec.getLsbD_or, BitVec.getLsbD_setWidth, BitVec.getLsbD_shiftLeft, BitVec.getLsbD_signExtend, BitVec.getLsbD_ushiftRight, hk, h1, h2, h3, h4, h5, decide_true, decide_false, Bool.true_and, Bool.not_false, Bool.false_or, ↓reduceIte]

/-- What the constructor of the encoder does to the collection. -/
theorem encoder_ok {k : Kind} {init : Str} {c c' : Collection} {b : BitField} (h : encoderMake k init c = .ok (b, c')) :
    BitField.make init = .ok b ∧ omFind strLt encodingKey c'.params.strs = some [init] ∧
    (∀ bit : Nat, cellID1Bit k = bit → c'.flag.getLsbD bit = decide (31 < b.highestBit)) ∧ c'.type = c.type ∧ c'.elems = c.elems := by
  unfold encoderMake at h
  cases hb : BitField.make init with
  | error e => rw [hb] at h; cases h
  | ok b1 =>
    rw [hb] at h
    simp only [bind, Except.bind] at h
    cases hp : c.params.setStr encodingKey init with
    | error e => rw [hp] at h; cases h
    | ok p =>
      rw [hp] at h
      simp only at h
      cases hf : setCellIDFlag k b1 c.flag with
      | error e => rw [hf] at h; cases h
      | ok fl =>
        rw [hf] at h
        simp only [pure, Except.pure, Except.ok.injEq, Prod.mk.injEq] at h
        obtain ⟨rfl, rfl⟩ := h
        refine ⟨rfl, ?_, ?_, rfl, rfl⟩
        · unfold Params.setStr Params.checked at hp
          split at hp
          · cases hp
          · cases hp
            simp only [assignVal]
            rw [omFind_assign strWeak, eqv_refl strWeak]
            simp only [↓reduceIte, Option.some.injEq]
            rw [omFind_assign strWeak, eqv_refl strWeak]
            rfl
        · intro bit hbit
          have hb31 : bit ≤ 31 := by
            have : cellID1Bit k ≤ 31 := by cases k <;> decide
            omega
          unfold setCellIDFlag at hf
          rw [hbit] at hf
          rw [if_pos (by omega)] at hf
          split at hf
          · rename_i hh
            obtain ⟨g, g1, g2⟩ := setBit_eq c.flag bit
            rw [g1] at hf
            cases hf
            rw [g2]
            have : ((bit : Int) ≤ 31) := by omega
            simp [this]; omega
          · rename_i hh
            obtain ⟨g, g1, g2⟩ := unsetBit_eq c.flag bit
            rw [g1] at hf
            cases hf
            rw [g2]
            simp; omega

/-- **C51**, in memory. For every layout and every content of the encoder: a decoder for the collection of the encoder, asked for a hit that the encoder filled, has the layout and the content
of the encoder, so that every field reads the same. -/
theorem C51_decodes (k : Kind) (init : Str) (hi : init ≠ []) (c c' : Collection) (b : BitField) (h : encoderMake k init c = .ok (b, c')) (v : W64) (o : Obj)
    (id0 id1 : W32) (ho : cellIDs ((b.setValue v).setCellID o) = some (id0, id1)) :
    ∃ d, decoderOfCollection (some c') = .ok d ∧ decoderOfString init = .ok d ∧ d.oldHit = 0 ∧
      ∀ hit, hit ≠ 0 → (d.call hit id0 id1).b = b.setValue v := by
  obtain ⟨hb, hp, -, -, -⟩ := encoder_ok h
  have hlen : ¬ init.length = 0 := fun hh => hi (List.length_eq_zero_iff.1 hh)
  refine ⟨{ b := b }, ?_, ?_, rfl, ?_⟩
  · unfold decoderOfCollection getVal
    simp only [hp, bind, Except.bind, hlen, ↓reduceIte, hb]
    rfl
  · unfold decoderOfString
    simp only [hlen, ↓reduceIte, hb]
  · intro hit hh
    unfold Decoder.call
    simp only [ne_eq, hh, not_false_eq_true, and_self, ↓reduceIte]
    have : id0 = v.setWidth 32 ∧ id1 = (v >>> 32).setWidth 32 := by
      unfold BitField.setCellID setCellIDs at ho
      cases o <;> simp only [cellIDs, Option.some.injEq, Prod.mk.injEq] at ho <;> first | exact ⟨ho.1.symm, ho.2.symm⟩ | cases ho
    rw [this.1, this.2, words_join]

/-- Calls of the decoder one after the other: what is seen for each hit. -/
def decodeEach (mem : Nat → W32 × W32) : Decoder → List Nat → List W64
  | _, [] => []
  | d, hit :: hits =>
    let d := d.call hit (mem hit).1 (mem hit).2
    d.b.value :: decodeEach mem d hits

/-- **C51**, order. A decoder gives for any hits, asked for in any order and any number of times, the content of their two words; as long as hits do not change. -/
theorem C51_order_partial (init : Str) (d : Decoder) (hd : decoderOfString init = .ok d ∨ ∃ c, decoderOfCollection c = .ok d) (mem : Nat → W32 × W32) (hits : List Nat)
    (hh : ∀ h ∈ hits, h ≠ 0) :
    ∃ vs, decodeEach mem d hits = vs ∧ vs.length = hits.length ∧
      ∀ (i : Nat) (v : W64) (hit : Nat), vs[i]? = some v → hits[i]? = some hit → v.setWidth 32 = (mem hit).1 ∧ (v >>> 32).setWidth 32 = (mem hit).2 := by
  have h0 : d.oldHit = 0 := by
    rcases hd with h | ⟨c, h⟩
    · unfold decoderOfString at h
      split at h
      · cases h
      · split at h
        · cases h
        · cases h; rfl
    · unfold decoderOfCollection at h
      cases c with
      | none =>
        simp only [bind, Except.bind] at h
        split at h
        · cases h
        · simp only [pure, Except.pure, Except.ok.injEq] at h; rw [← h]
      | some c =>
        simp only [bind, Except.bind] at h
        split at h
        · cases h
        · split at h
          · cases h
          · simp only [pure, Except.pure, Except.ok.injEq] at h; rw [← h]
  have key : ∀ (hits : List Nat) (d : Decoder), (∀ h ∈ hits, h ≠ 0) →
      (d.oldHit ≠ 0 → d.b.value.setWidth 32 = (mem d.oldHit).1 ∧ (d.b.value >>> 32).setWidth 32 = (mem d.oldHit).2) →
      (decodeEach mem d hits).length = hits.length ∧ ∀ (i : Nat) (v : W64) (hit : Nat), (decodeEach mem d hits)[i]? = some v → hits[i]? = some hit →
        v.setWidth 32 = (mem hit).1 ∧ (v >>> 32).setWidth 32 = (mem hit).2 := by
    intro hits
    induction hits with
    | nil => intro d _ _; exact ⟨rfl, fun i v hit h => by simp [decodeEach] at h⟩
    | cons x xs ih =>
      intro d hne hd
      have hx : x ≠ 0 := hne x (List.mem_cons_self ..)
      have hcall : (d.call x (mem x).1 (mem x).2).oldHit = x ∧ (d.call x (mem x).1 (mem x).2).b.value.setWidth 32 = (mem x).1 ∧
          ((d.call x (mem x).1 (mem x).2).b.value >>> 32).setWidth 32 = (mem x).2 := by
        unfold Decoder.call
        by_cases hc : x = d.oldHit
        · rw [if_neg (by simp [hc])]
          have := hd (hc ▸ hx)
          exact ⟨hc.symm, by rw [hc]; exact this⟩
        · rw [if_pos ⟨hc, hx⟩]
          refine ⟨rfl, ?_⟩
          exact join_words _ _
      obtain ⟨i1, i2⟩ := ih (d.call x (mem x).1 (mem x).2) (fun h hh => hne h (List.mem_cons_of_mem _ hh)) (by
        intro _; rw [hcall.1]; exact hcall.2)
      refine ⟨by simp only [decodeEach, List.length_cons, i1], ?_⟩
      intro i v hit h1 h2
      cases i with
      | zero =>
        simp only [decodeEach, List.getElem?_cons_zero, Option.some.injEq] at h1 h2
        subst h1 h2
        exact hcall.2
      | succ i =>
        simp only [decodeEach, List.getElem?_cons_succ] at h1 h2
        exact i2 i v hit h1 h2
  exact ⟨_, rfl, key hits d hh (fun h => absurd h0 h)⟩

/-- **C51** fails for a hit that has changed since the decoder was asked for it, or for another hit at the same address: the old content is seen. -/
theorem C51_fails_for_changed_hit : ∃ d, decoderOfString calo = .ok d ∧
    (d.call 17 5 0).b.get 0 = .ok 5 ∧ ((d.call 17 5 0).call 17 6 0).b.get 0 = .ok 5 ∧ (d.call 17 6 0).b.get 0 = .ok 6 := by
  have : (decoderOfString calo).isOk = true := by decide +kernel
  cases h : decoderOfString calo with
  | error e => rw [h] at this; cases this
  | ok d =>
    have e : ∀ f : Decoder → Bool, ((decoderOfString calo).toOption.map f) = some (f d) := fun f => by rw [h]; rfl
    refine ⟨d, rfl, ?_⟩
    have := e fun d => decide (((d.call 17 5 0).b.get 0).toOption = some 5 ∧ (((d.call 17 5 0).call 17 6 0).b.get 0).toOption = some 5 ∧ ((d.call 17 6 0).b.get 0).toOption = some 6)
    rw [show (decoderOfString calo).toOption.map _ = some true by decide +kernel] at this
    simp only [Option.some.injEq] at this
    have := of_decide_eq_true this.symm
    have key : ∀ (x : Except Err W64) y, x.toOption = some y → x = .ok y := by
      intro x y h; cases x with
      | error e => cases h
      | ok x => simp only [Except.toOption, Option.some.injEq] at h; rw [h]
    exact ⟨key _ _ this.1, key _ _ this.2.1, key _ _ this.2.2⟩

/-- The bit for the class of a hit. -/
def hitBit : Obj → Nat
  | .simCalHit _ => 29
  | .rawCalHit _ => 29
  | .calHit _ => 29
  | .simTrackerHit _ => 29
  | _ => 31

theorem hitBit_eq (k : Kind) (o : Obj) (hok : ObjOk k o) (x : W32 × W32) (h : cellIDs o = some x) : cellID1Bit k = hitBit o := by
  cases k <;> cases o <;> simp only [ObjOk] at hok <;> first | (simp only [cellIDs] at h; cases h; done) | rfl

/-- The second word is kept if the bit is set, and the first always. -/
theorem kept_cellIDs (std : Std Pid) (flag : W32) (f : Nat → Nat) (ids : List Nat) (o : Obj) (id0 id1 : W32)
    (h : cellIDs o = some (id0, id1)) : cellIDs (keptObj std flag f ids o) = some (id0, if flag.getLsbD (hitBit o) then id1 else 0) := by
  cases o <;> simp only [cellIDs, Option.some.injEq, Prod.mk.injEq] at h <;> first | (cases h; done) | (obtain ⟨rfl, rfl⟩ := h; rfl)

/-- **C51**, through a file. An encoder of any layout was made for a collection of its class, `c`, and hits of the collection were filled by it, each after any assignments to the fields. When the
event is stored and loaded, with whatever else is in it, then a decoder for the loaded collection, asked for a loaded hit, has the layout of the encoder and the content that the encoder had
when it filled the hit; also if the second word was not stored. (The flag word and the parameters of the collection may be changed, except for the bit and the parameter that the encoder set.
An empty layout, which has no fields, is excluded; the decoder takes a default layout then.) -/
theorem C51_file (std : Std Pid) (ignoreNull : Bool) (only wanted : List Str) (h : EventHeader) (cols : List (Str × Collection))
    (hs : Storable std ignoreNull only wanted h cols) (buf : Str × Str) (opts : W32) (next : Nat) (hnext : 0 < next)
    (i : Nat) (name : Str) (col : Collection) (hcol : (wantedCols wanted (storedCols only cols))[i]? = some (name, col)) (hsub : col.flag.getLsbD 18 = false)
    (init : Str) (hi : init ≠ []) (c c' : Collection) (b : BitField) (henc : encoderMake (kindD col) init c = .ok (b, c'))
    (hflag : ∀ bit : Nat, cellID1Bit (kindD col) = bit → col.flag.getLsbD bit = c'.flag.getLsbD bit)
    (hparam : omFind strLt encodingKey col.params.strs = omFind strLt encodingKey c'.params.strs) :
    ∃ (h' : EventHeader) (cols' : List (Str × Collection)) (col' : Collection) (d : Decoder), storeLoadEvent std ignoreNull only wanted buf opts next h cols = .ok (h', cols') ∧ cols'[i]? = some (name, col') ∧
      decoderOfCollection (some col') = .ok d ∧
      ∀ (j : Nat) (e : Elem) (o : Obj) (as : List (Nat × W64)), col.elems[j]? = some e → e.obj = some o → cellIDs o = some ((assignAll b as).lowWord, (assignAll b as).highWord) →
        ∃ (e' : Elem) (o' : Obj) (id0 id1 : W32), col'.elems[j]? = some e' ∧ e'.obj = some o' ∧ cellIDs o' = some (id0, id1) ∧
          ∀ hit, hit ≠ 0 → (d.call hit id0 id1).b = assignAll b as := by
  obtain ⟨hb, hp, hf, -, -⟩ := encoder_ok henc
  have m := make_made hb
  have hlen : ¬ init.length = 0 := fun hh => hi (List.length_eq_zero_iff.1 hh)
  obtain ⟨v, hv, hin⟩ : ∃ v, b = b.setValue v ∧ v = 0 := ⟨b.value, rfl, m.2⟩
  obtain ⟨h', cols', T, e1, e2⟩ := event_final std ignoreNull only wanted h cols hs buf opts next hnext (fun T flag e e' =>
    ∀ o id0 id1, e.obj = some o → cellIDs o = some (id0, id1) → ∃ o', e'.obj = some o' ∧ cellIDs o' = some (id0, if flag.getLsbD (hitBit o) then id1 else 0)) (by
      intro T flag flag' k e e' o D hT ho hok hf he' ha hD o1 id0 id1 ho1 hid
      rw [ho] at ho1
      cases ho1
      have hk : k ≠ .generic := by
        rintro rfl
        have := hitBit_eq _ _ hok _ hid
        simp only [cellID1Bit] at this
        omega
      have hnm : ∀ x, o ≠ .mcParticle x := by rintro x rfl; simp only [cellIDs] at hid; cases hid
      have hf := hf hk
      subst hf
      have hkept := kept_cellIDs std flag' T ((pidsOf o).map fun p => T p.addr) o id0 id1 hid
      refine ⟨_, ?_, hkept⟩
      obtain ⟨a', o'⟩ := e'
      simp only at he'
      subst he'
      cases o <;> first | rfl | exact absurd rfl (hnm _))
  have hmem := List.mem_of_getElem? hcol
  have hok : CollectionOk std (kindD col) col := hs.event.stored (name, col) (List.mem_filter.1 hmem).1
  have hlen2 := e2.names
  obtain ⟨c1, hc1⟩ : ∃ c1, cols'[i]? = some c1 := by
    have : cols'.length = (wantedCols wanted (storedCols only cols)).length := by
      have := congrArg List.length hlen2
      simpa using this
    have hi := (List.getElem?_eq_some_iff.1 hcol).1
    exact ⟨_, List.getElem?_eq_getElem (by omega)⟩
  obtain ⟨name', col'⟩ := c1
  have hn : name' = name := by
    have := congrArg (fun l => l[i]?) hlen2
    simp only [List.getElem?_map, hcol, hc1, Option.map_some, Option.some.injEq, Prod.mk.injEq] at this
    exact this.1
  subst hn
  have hhead := e2.heads.2 i _ _ hcol hc1
  have hobjs := e2.objects.2 i _ _ hcol hc1 hsub
  have hdec : decoderOfCollection (some col') = .ok { b := b } := by
    have hkey : omFind strLt encodingKey col'.params.strs = some [init] := by
      rw [← hp, ← hparam]
      by_cases hv : kindD col = .vertex
      · exact hhead.vertex hv encodingKey (by decide)
      · by_cases hg : kindD col = .generic
        · exact hhead.generic hg encodingKey (Or.inl (by decide))
        · exact congrArg _ (hhead.strs hv hg)
    unfold decoderOfCollection getVal
    simp only [hkey, bind, Except.bind, hlen, ↓reduceIte, hb]
    rfl
  refine ⟨h', cols', col', { b := b }, e1, hc1, hdec, ?_⟩
  intro j e o as hj ho hid
  obtain ⟨e', he'⟩ : ∃ e', col'.elems[j]? = some e' := by
    have := hobjs.1
    have hi := (List.getElem?_eq_some_iff.1 hj).1
    simp only at this hi
    exact ⟨_, List.getElem?_eq_getElem (by omega)⟩
  obtain ⟨o', ho', hid'⟩ := hobjs.2 j e e' hj he' o _ _ ho hid
  refine ⟨e', o', _, _, he', ho', hid', ?_⟩
  intro hit hh
  have hobj : ObjOk (kindD col) o := by
    obtain ⟨o2, h1, h2⟩ := hok.objects hsub e (List.mem_of_getElem? hj)
    rw [ho] at h1; cases h1; exact h2
  have hbit := hitBit_eq _ _ hobj _ hid
  have hset := (hflag _ hbit).trans (hf _ hbit)
  obtain ⟨v', hv', hin'⟩ := assign_inside hb as v (by rw [hin]; intro k _ hk; simp at hk)
  rw [← hv] at hv'
  have hhigh : (if col.flag.getLsbD (hitBit o) = true then (assignAll b as).highWord else 0) = (assignAll b as).highWord := by
    rw [hset]
    by_cases hh : 31 < b.highestBit
    · simp [hh]
    · simp only [hh, decide_false, Bool.false_eq_true, ↓reduceIte]
      apply BitVec.eq_of_getLsbD_eq
      intro k hk
      rw [hv']
      unfold BitField.highWord BitField.setValue
      simp only [BitVec.getLsbD_setWidth, BitVec.getLsbD_ushiftRight, hk, decide_true, Bool.true_and]
      cases hc : v'.getLsbD (32 + k) with
      | false => simp
      | true =>
        obtain ⟨f, hf1, hf2⟩ := hin' _ (by omega) hc
        have := (highestBit_ge b.fields 0).2 f hf1
        unfold BitField.highestBit at hh
        omega
  simp only [hhigh]
  unfold Decoder.call
  simp only [ne_eq, hh, not_false_eq_true, and_self, ↓reduceIte]
  rw [hv']
  unfold BitField.lowWord BitField.highWord
  rw [words_join]
  rfl

/-! ### An example -/

/-- The bit field and the collection that an encoder with the layout of the documentation makes for an empty collection. -/
def caloEnc : BitField × Collection := ((encoderMake .simCalHit calo { type := str "SimCalorimeterHit", flag := 0x80000000 }).toOption).getD ({}, { type := [] })

/-- Two hits filled by the encoder. -/
def caloHits : Collection := { caloEnc.2 with elems := [
  ⟨7, some ((assignAll caloEnc.1 [(0, 123), (1, -4), (3, 180)]).setCellID (.simCalHit { energy := 5 }))⟩,
  ⟨8, some ((assignAll caloEnc.1 [(0, 123), (1, -4), (3, 180), (4, 270), (0, 1)]).setCellID (.simCalHit {}))⟩] }

/-- They meet the hypotheses of `C51_file`. -/
example : Storable ieee false [] [] {} [(str "Calo", caloHits)] := by decide +kernel
example : (encoderMake (kindD caloHits) calo { type := str "SimCalorimeterHit", flag := 0x80000000 }).toOption = some caloEnc ∧ caloHits.flag = 0xa0000000 ∧
    caloHits.flag = caloEnc.2.flag ∧ omFind strLt encodingKey caloHits.params.strs = omFind strLt encodingKey caloEnc.2.params.strs := by decide +kernel

theorem commas_eq (l : List Str) : commas l = List.intercalate (str ",") l := by
  induction l with
  | nil => rfl
  | cons a l ih =>
    cases l with
    | nil => simp [commas, List.intercalate]
    | cons b l =>
      have : commas (a :: b :: l) = a ++ str "," ++ commas (b :: l) := rfl
      rw [this, ih]
      simp [List.intercalate, List.intersperse]

/-- **C50**, values: `valueString` lists the name and the number of every field, in decimal digits, with colons and commas between. -/
theorem C50_values (init : Str) (b : BitField) (hb : BitField.make init = .ok b) (v : W64) :
    (b.setValue v).valueString = List.intercalate (str ",") (b.fields.map fun f => f.name ++ str ":" ++ decInt (fieldNum f.signed v f.offset f.width)) := by
  have m := (make_made hb).1
  rw [← commas_eq]
  unfold BitField.valueString BitField.setValue
  congr 1
  apply List.map_congr_left
  intro f hf
  rw [value_num (m.fields f hf) v]

/-- The decimal digits of a number, with a minus sign if it is negative, stand for the number. -/
theorem C50_digits (n : Int) : (0 ≤ n → digits 0 (decInt n) = n) ∧ (n < 0 → ∃ s, decInt n = str "-" ++ s ∧ digits 0 s = -n) := by
  constructor
  · intro h
    rw [decInt, if_neg (by omega), dec_value]; omega
  · intro h
    rw [decInt, if_pos h]
    exact ⟨_, rfl, by rw [dec_value]; omega⟩

example : ∃ b, BitField.make (str "x:0:-8,y:8") = .ok b ∧ (b.setValue 0x9fc).valueString = str "x:-4,y:9" := by
  refine ⟨_, rfl, ?_⟩; decide +kernel

end Props
