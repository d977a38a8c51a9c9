import Verif.Util.Ild
import Verif.Spec.Ild
import Verif.Props.TrackerConf
/-
C108: encoders of cell ids for ILD.
-/
namespace Util
open Sio Lcio

theorem appendLast_append (c : Byte) : ∀ (pre ts : List Str), ts ≠ [] → appendLast c (pre ++ ts) = pre ++ appendLast c ts := by
  intro pre
  induction pre with
  | nil => intro ts _; rfl
  | cons p pre ih =>
    intro ts h
    rw [List.cons_append, List.cons_append, ← ih ts h]
    cases hq : pre ++ ts with
    | nil => exact absurd (List.append_eq_nil_iff.1 hq).2 h
    | cons q qs => rfl

theorem appendLast_ne (c : Byte) (ts : List Str) (h : ts ≠ []) : appendLast c ts ≠ [] := by
  match ts, h with
  | [t], _ => simp [appendLast]
  | t :: u :: us, _ => simp [appendLast]

theorem tokens_from (del : Byte) (s : Str) : ∀ (pre ts : List Str) (last : Byte), (last ≠ del → ts ≠ []) →
    (s.foldl (tokStep del) (pre ++ ts, last)).1 = pre ++ (s.foldl (tokStep del) (ts, last)).1 := by
  induction s with
  | nil => intro pre ts last _; rfl
  | cons c s ih =>
    intro pre ts last h
    rw [List.foldl_cons, List.foldl_cons]
    unfold tokStep
    by_cases hc : c ≠ del
    · rw [if_pos hc, if_pos hc]
      simp only
      by_cases hl : last = del
      · rw [if_pos hl, if_pos hl, List.append_assoc, appendLast_append c pre _ (by simp)]
        exact ih pre _ c (fun _ => appendLast_ne c _ (by simp))
      · rw [if_neg hl, if_neg hl, appendLast_append c pre _ (h hl)]
        exact ih pre _ c (fun _ => appendLast_ne c _ (h hl))
    · rw [if_neg hc, if_neg hc]
      exact ih pre ts c (fun h => absurd h hc)

/-- A delimiter separates tokens. -/
theorem tokens_append (del : Byte) (a s : Str) : tokens del (a ++ del :: s) = tokens del a ++ tokens del s := by
  unfold tokens
  rw [List.foldl_append, List.foldl_cons]
  have h : tokStep del (a.foldl (tokStep del) ([], del)) del = ((a.foldl (tokStep del) ([], del)).1, del) := by
    unfold tokStep
    rw [if_neg (by simp)]
  rw [h]
  have := tokens_from del s (a.foldl (tokStep del) ([], del)).1 [] del (fun h => absurd rfl h)
  rw [List.append_nil] at this
  exact this

theorem initLoop_fields (ds : List Str) : ∀ (o : Nat) (b b' : BitField), initLoop o b ds = .ok b' → ∃ fs, b'.fields = b.fields ++ fs := by
  induction ds with
  | nil => intro o b b' h; cases h; exact ⟨[], by simp⟩
  | cons d ds ih =>
    intro o b b' h
    unfold initLoop at h
    split at h
    · cases h
    · split at h
      · cases h
      · rename_i b1 hb1
        obtain ⟨fs, hfs⟩ := ih _ _ _ h
        have : ∃ f, b1.fields = b.fields ++ [f] := by
          unfold BitField.addField at hb1
          split at hb1
          · cases hb1
          · rename_i f _
            split at hb1
            · cases hb1
            · cases hb1; exact ⟨f, rfl⟩
        obtain ⟨f, hf⟩ := this
        exact ⟨f :: fs, by rw [hfs, hf]; simp⟩

end Util

namespace Props
open Sio Spec Lcio Util

/-- The bit field of the fields that all cell ids of ILD have. -/
def ildBits : BitField := (BitField.make ildEncoding).toOption.getD {}

theorem ildBits_made : BitField.make ildEncoding = .ok ildBits := by decide +kernel
theorem ildBits_layout : layout ildBits = ildFields := by decide +kernel

theorem ild_make (more : Str) (b : BitField) (h : BitField.make (ildEncoding ++ str "," ++ more) = .ok b) : ∃ fs, b.fields = ildBits.fields ++ fs := by
  unfold BitField.make at h
  have e : ildEncoding ++ str "," ++ more = ildEncoding ++ 44 :: more := by simp [str]
  rw [e, tokens_append] at h
  have h5 : tokens 44 ildEncoding = [str "subdet:5", str "side:-2", str "layer:9", str "module:8", str "sensor:8"] := by decide +kernel
  have key : ∀ ts, initLoop 0 {} ([str "subdet:5", str "side:-2", str "layer:9", str "module:8", str "sensor:8"] ++ ts) = initLoop 32 ildBits ts := by
    intro ts
    have p1 : parseField 0 (str "subdet:5") = .ok (str "subdet", 0, 5, 5) := by decide +kernel
    have p2 : parseField 5 (str "side:-2") = .ok (str "side", 5, -2, 7) := by decide +kernel
    have p3 : parseField 7 (str "layer:9") = .ok (str "layer", 7, 9, 16) := by decide +kernel
    have p4 : parseField 16 (str "module:8") = .ok (str "module", 16, 8, 24) := by decide +kernel
    have p5 : parseField 24 (str "sensor:8") = .ok (str "sensor", 24, 8, 32) := by decide +kernel
    have q : (do
        let b ← ({} : BitField).addField (str "subdet") 0 5
        let b ← b.addField (str "side") 5 (-2)
        let b ← b.addField (str "layer") 7 9
        let b ← b.addField (str "module") 16 8
        b.addField (str "sensor") 24 8) = .ok ildBits := by decide +kernel
    simp only [List.cons_append, List.nil_append, initLoop, p1, p2, p3, p4, p5]
    simp only [bind, Except.bind] at q
    revert q
    cases ({} : BitField).addField (str "subdet") 0 5 with
    | error e => intro q; cases q
    | ok b1 =>
      simp only
      cases b1.addField (str "side") 5 (-2) with
      | error e => intro q; cases q
      | ok b2 =>
        simp only
        cases b2.addField (str "layer") 7 9 with
        | error e => intro q; cases q
        | ok b3 =>
          simp only
          cases b3.addField (str "module") 16 8 with
          | error e => intro q; cases q
          | ok b4 =>
            simp only
            cases b4.addField (str "sensor") 24 8 with
            | error e => intro q; cases q
            | ok b5 => intro q; cases q; rfl
  rw [h5, key] at h
  exact initLoop_fields _ _ _ _ h

theorem ild_more {k : Kind} {more : Str} {c c' : Collection} {b : BitField} (h : ildMakeMore k more c = (.ok b, c')) :
    more ≠ [] ∧ encoderMake k (ildEncoding ++ str "," ++ more) c = .ok (b, c') := by
  unfold ildMakeMore at h
  split at h
  · cases h
  · rename_i b1 c1 he
    split at h
    · cases h
    · rename_i hl
      cases h
      exact ⟨fun hm => hl (by rw [hm]; rfl), he⟩

/-- **C108**. Whatever further fields are given to an encoder for ILD: the first five fields are those of the canonical encoding, with the same names, the same indices and the same bits,
all in the first of the two words of a cell id. -/
theorem C108_fields (k : Kind) (more : Str) (c c' : Collection) (b : BitField) (h : ildMakeMore k more c = (.ok b, c')) :
    ∃ further, layout b = ildFields ++ further := by
  obtain ⟨-, h2⟩ := ild_more h
  obtain ⟨fs, hfs⟩ := ild_make more b (encoder_ok h2).1
  refine ⟨fs.map fun f => ⟨f.name, f.offset, f.width, f.signed⟩, ?_⟩
  rw [← ildBits_layout]
  unfold layout
  rw [hfs, List.map_append]

/-- Numbers in the first word do not depend on the second word. -/
theorem fieldNum_low (signed : Bool) (a b : W64) (off w : Nat) (h : off + w ≤ 32) (hab : a.setWidth 32 = b.setWidth 32) : fieldNum signed a off w = fieldNum signed b off w := by
  have : a.extractLsb' off w = b.extractLsb' off w := by
    ext k hk
    have := congrArg (fun x : W32 => x.getLsbD (off + k)) hab
    simp only [BitVec.getLsbD_setWidth] at this
    have h32 : off + k < 32 := by omega
    simp only [h32, decide_true, Bool.true_and] at this
    simp only [BitVec.getElem_extractLsb', this]
  unfold fieldNum
  rw [this]

/-- Setting the flag bit for the second word works for all types of hits. -/
theorem flag_ok (k : Kind) (b : BitField) (flag : W32) : ∃ fl, setCellIDFlag k b flag = .ok fl := by
  unfold setCellIDFlag
  split
  · rename_i h0
    obtain ⟨n, hn⟩ := Int.eq_ofNat_of_zero_le h0
    rw [hn]
    split
    · obtain ⟨g, g1, -⟩ := setBit_eq flag n; exact ⟨g, g1⟩
    · obtain ⟨g, g1, -⟩ := unsetBit_eq flag n; exact ⟨g, g1⟩
  · exact ⟨_, rfl⟩

/-- **C108**. A hit that was filled by an encoder for ILD with further fields can be read with a decoder for the collection, and also with a decoder that knows only the canonical encoding, even if the
second word of the cell id is lost: for each of the five fields both give the number that the encoder holds. -/
theorem C108_decodes (k : Kind) (more : Str) (c c' : Collection) (b : BitField) (h : ildMakeMore k more c = (.ok b, c')) (v : W64) (o : Obj)
    (id0 id1 : W32) (ho : cellIDs ((b.setValue v).setCellID o) = some (id0, id1)) :
    ∃ d d0, decoderOfCollection (some c') = .ok d ∧ decoderOfString ildEncoding = .ok d0 ∧
      ∀ (i : Nat) e, ildFields[i]? = some e → ∀ hit, hit ≠ 0 → ∀ lost : W32, ∃ x, x.toInt = fieldNum e.signed v e.offset e.width ∧
        (b.setValue v).get i = .ok x ∧ (d.call hit id0 id1).b.get i = .ok x ∧ (d0.call hit id0 lost).b.get i = .ok x := by
  obtain ⟨h1, h2⟩ := ild_more h
  obtain ⟨hb, -⟩ := encoder_ok h2
  obtain ⟨fs, hfs⟩ := ild_make more b hb
  obtain ⟨d, e1, -, -, e4⟩ := C51_decodes k _ (by simp [ildEncoding, str]) c c' b h2 v o id0 id1 ho
  have hd0 : decoderOfString ildEncoding = .ok { b := ildBits } := by
    unfold decoderOfString
    rw [if_neg (by decide), ildBits_made]
  refine ⟨d, { b := ildBits }, e1, hd0, ?_⟩
  intro i e he hit hh lost
  have hid : id0 = v.setWidth 32 := by
    unfold BitField.setCellID setCellIDs at ho
    cases o <;> simp only [cellIDs, Option.some.injEq, Prod.mk.injEq] at ho <;> first | exact ho.1.symm | cases ho
  have hi5 : i < ildBits.fields.length := by
    have := (List.getElem?_eq_some_iff.1 he).1
    rw [← ildBits_layout] at this
    simpa [layout] using this
  have hf0 : ildBits.fields[i]? = some ildBits.fields[i] := List.getElem?_eq_getElem hi5
  have hf : b.fields[i]? = some ildBits.fields[i] := by rw [hfs, List.getElem?_append_left hi5, hf0]
  have hent : e = ⟨ildBits.fields[i].name, ildBits.fields[i].offset, ildBits.fields[i].width, ildBits.fields[i].signed⟩ := by
    rw [← ildBits_layout] at he
    unfold layout at he
    rw [List.getElem?_map, hf0] at he
    exact (Option.some.inj he).symm
  have g1 := C49_read _ b hb v i _ hf
  have g2 := C49_read _ ildBits ildBits_made ((((id0 &&& 0xffffffff).setWidth 64) ||| ((lost.signExtend 64) <<< 32))) i _ hf0
  obtain ⟨x, g3, g4⟩ := g1
  obtain ⟨y, g5, g6⟩ := g2
  have hlow : ((((id0 &&& 0xffffffff).setWidth 64) ||| ((lost.signExtend 64) <<< 32)) : W64).setWidth 32 = v.setWidth 32 := by rw [(join_words id0 lost).1, hid]
  have hfit : ∀ e ∈ layout ildBits, e.offset + e.width ≤ 32 := by rw [ildBits_layout]; decide +kernel
  have hin := hfit e (by rw [ildBits_layout]; exact List.mem_of_getElem? he)
  rw [hent] at hin
  have hxy : y = x := by
    refine BitVec.eq_of_toInt_eq ?_
    rw [g4, g6, fieldNum_low _ _ _ _ _ hin hlow]
  refine ⟨x, ?_, g3, ?_, ?_⟩
  · rw [g4, hent]
  · rw [e4 hit hh]; exact g3
  · rw [← hxy, ← g5]
    unfold Decoder.call
    rw [if_pos ⟨hh, hh⟩]

/-- **C108**, further fields. Fields that are described without a first bit, or with a first bit from 32 on, come after the canonical ones, one after the other, from bit 32 on. -/
theorem C108_further (k : Kind) (ds : List FieldDesc) (hne : ds ≠ []) (h : GoodLayout (ildFields ++ placed 32 ds)) (c : Collection) (hw : c.params.readOnly = false) :
    ∃ b c', ildMakeMore k (commas (ds.map FieldDesc.text)) c = (.ok b, c') ∧ layout b = ildFields ++ placed 32 ds := by
  let ild : List FieldDesc := [⟨str "subdet", none, 5, false⟩, ⟨str "side", none, 2, true⟩, ⟨str "layer", none, 9, false⟩, ⟨str "module", none, 8, false⟩, ⟨str "sensor", none, 8, false⟩]
  have hp : placed 0 (ild ++ ds) = ildFields ++ placed 32 ds := rfl
  have ht : commas ((ild ++ ds).map FieldDesc.text) = ildEncoding ++ str "," ++ commas (ds.map FieldDesc.text) := by
    cases ds with
    | nil => exact absurd rfl hne
    | cons d ds =>
      have : ildEncoding = commas (ild.map FieldDesc.text) := by decide +kernel
      rw [this, List.map_append]
      simp only [ild, List.map_cons, List.map_nil, List.cons_append, List.nil_append, commas, List.append_assoc]
  obtain ⟨b, b1, b2⟩ := C50_describes (ild ++ ds) (by rw [hp]; exact h)
  rw [ht] at b1
  rw [hp] at b2
  obtain ⟨fl, hfl⟩ := flag_ok k b c.flag
  have hlen : ¬ (commas (ds.map FieldDesc.text)).length = 0 := by
    cases ds with
    | nil => exact absurd rfl hne
    | cons d ds =>
      have h1 : d.text ≠ [] := by
        have := ((h.1 _ (List.mem_append_right _ (List.mem_cons_self))).1 : d.name ≠ [])
        unfold FieldDesc.text
        simp [this]
      intro h0
      cases ds with
      | nil => exact h1 (List.length_eq_zero_iff.1 h0)
      | cons d' ds =>
        simp only [List.map_cons, commas, List.length_append] at h0
        exact h1 (List.length_eq_zero_iff.1 (by omega))
  obtain ⟨p, hpar⟩ : ∃ p, c.params.setStr encodingKey (ildEncoding ++ str "," ++ commas (ds.map FieldDesc.text)) = .ok p := by
    unfold Params.setStr Params.checked
    rw [hw]
    exact ⟨_, rfl⟩
  refine ⟨b, { c with params := p, flag := fl }, ?_, b2⟩
  unfold ildMakeMore encoderMake
  rw [b1]
  simp only [bind, Except.bind, hpar, hfl, pure, Except.pure]
  rw [if_neg hlen]

/-- **C108** fails for a text without further fields: the constructor throws, as documented, but the collection has been changed: its encoding is now a text that ends with a comma. -/
theorem C108_fails_for_empty (k : Kind) (c : Collection) (hw : c.params.readOnly = false) :
    ∃ c', ildMakeMore k [] c = (.error .lcException, c') ∧ omFind strLt encodingKey c'.params.strs = some [ildEncoding ++ str ","] := by
  have hb : BitField.make (ildEncoding ++ str "," ++ []) = .ok ildBits := by decide +kernel
  obtain ⟨fl, hfl⟩ := flag_ok k ildBits c.flag
  obtain ⟨p, hpar⟩ : ∃ p, c.params.setStr encodingKey (ildEncoding ++ str "," ++ []) = .ok p := by
    unfold Params.setStr Params.checked
    rw [hw]
    exact ⟨_, rfl⟩
  have he : encoderMake k (ildEncoding ++ str "," ++ []) c = .ok (ildBits, { c with params := p, flag := fl }) := by
    unfold encoderMake
    rw [hb]
    simp only [bind, Except.bind, hpar, hfl, pure, Except.pure]
  refine ⟨{ c with params := p, flag := fl }, ?_, ?_⟩
  · unfold ildMakeMore
    rw [he]
    rfl
  · have := (encoder_ok he).2.1
    rwa [List.append_nil] at this

/-- **C108** fails for further fields with the name of a canonical one: asked by name, the encoder gives the further field. -/
theorem C108_fails_for_repeated_name : ∃ b c', ildMakeMore .trackerHit (str "layer:3") (Collection.mk (str "TrackerHit") 0 {} []) = (.ok b, c') ∧
    b.index (str "layer") = .ok 5 ∧ (b.setValue 0x0000000580).getNamed (str "layer") = .ok 0 ∧ (b.setValue 0x0000000580).get ildLayer = .ok 11 := by
  refine ⟨(BitField.make (ildEncoding ++ str ",layer:3")).toOption.getD {}, (ildMakeMore .trackerHit (str "layer:3") (Collection.mk (str "TrackerHit") 0 {} [])).2, ?_, ?_⟩
  · exact Prod.ext (by decide +kernel) rfl
  · decide +kernel

/-! ## Cases -/

/-- The fields have these names at the indices that are given for them, and the encoding is the default for trackers. -/
example : (ildFields[ildSubdet]?.map (·.name), ildFields[ildSide]?.map (·.name), ildFields[ildLayer]?.map (·.name), ildFields[ildModule]?.map (·.name), ildFields[ildSensor]?.map (·.name)) =
    (some (str "subdet"), some (str "side"), some (str "layer"), some (str "module"), some (str "sensor")) ∧ ({} : TrackerConf).encodingString.1 = ildEncoding := by decide +kernel

/-- Further fields, one of them with a first bit: the hypotheses are met for every kind of hit and every collection that can be changed. -/
example (k : Kind) (c : Collection) (hw : c.params.readOnly = false) : ∃ b c', ildMakeMore k (str "row:10,col:50:-6") c = (.ok b, c') ∧
    layout b = ildFields ++ [⟨str "row", 32, 10, false⟩, ⟨str "col", 50, 6, true⟩] := by
  refine C108_further k [⟨str "row", none, 10, false⟩, ⟨str "col", some 50, 6, true⟩] (by simp) ⟨?_, ?_⟩ c hw
  · simp only [ildFields, placed, List.cons_append, List.nil_append, List.mem_cons, List.not_mem_nil, or_false, Option.getD]
    rintro e (rfl | rfl | rfl | rfl | rfl | rfl | rfl) <;> unfold GoodEntry <;> decide +kernel
  · simp only [ildFields, placed, List.cons_append, List.nil_append, Option.getD, List.pairwise_cons, List.mem_cons, List.not_mem_nil, or_false]
    refine ⟨?_, ?_, ?_, ?_, ?_, ?_, ?_, List.Pairwise.nil⟩
    · rintro e (rfl | rfl | rfl | rfl | rfl | rfl) <;> intro k <;> simp only <;> omega
    · rintro e (rfl | rfl | rfl | rfl | rfl) <;> intro k <;> simp only <;> omega
    · rintro e (rfl | rfl | rfl | rfl) <;> intro k <;> simp only <;> omega
    · rintro e (rfl | rfl | rfl) <;> intro k <;> simp only <;> omega
    · rintro e (rfl | rfl) <;> intro k <;> simp only <;> omega
    · rintro e rfl; intro k; simp only; omega
    · intro e h; cases h

/-- Side -1, layer 300 and row 5. -/
example : ((BitField.make (ildEncoding ++ str ",row:10")).toOption.getD {}).getNamed (str "row") = .ok 0 ∧
    cellIDs ((((BitField.make (ildEncoding ++ str ",row:10")).toOption.getD {}).setValue 0x0000000500009661).setCellID (.trackerHit {})) = some (0x00009661, 5) ∧
    (ildBits.setValue 0x00009661).valueString = str "subdet:1,side:-1,layer:300,module:0,sensor:0" := by decide +kernel

end Props
