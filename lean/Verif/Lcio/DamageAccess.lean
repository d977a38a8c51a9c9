import Verif.Lcio.DamageReader
/-
Lemmas for C74 and C75: direct access in arbitrary files, and the calls of a reader.
-/
namespace Lcio
open Sio Spec

/-- The stream is still on the file, and what went wrong is a fault of the file. -/
structure Fine {α : Type} (cfg : RConfig) (file : List Byte) (res : Except Err α) (s : IStream) : Prop where
  bytes : s.bytes = file
  ub : res = .error .ub → Danger cfg file
  ends : res = .error .diverge → Stuck cfg file

theorem fine_ok {α : Type} {cfg : RConfig} {file : List Byte} {a : α} {s : IStream} (h : s.bytes = file) : Fine cfg file (.ok a) s :=
  ⟨h, (fun h => nomatch h), fun h => nomatch h⟩

theorem fine_io {α : Type} {cfg : RConfig} {file : List Byte} {e : Err} {s : IStream} (h : s.bytes = file) (h1 : e ≠ .ub) (h2 : e ≠ .diverge) :
    Fine cfg file (.error e : Except Err α) s :=
  ⟨h, fun h => absurd (by cases h; rfl) h1, fun h => absurd (by cases h; rfl) h2⟩

theorem fine_err {α β : Type} {cfg : RConfig} {file : List Byte} {e : Err} {s s' : IStream} (h : Fine cfg file (.error e : Except Err α) s) (hs : s'.bytes = file) :
    Fine cfg file (.error e : Except Err β) s' :=
  ⟨hs, fun h' => h.ub (by cases h'; rfl), fun h' => h.ends (by cases h'; rfl)⟩

theorem seekStream_any (s : IStream) (pos : Int) :
    (seekStream s pos).2.bytes = s.bytes ∧ (∀ e, (seekStream s pos).1 = .error e → e = .ioException) ∧
    ((seekStream s pos).1 = .ok () → (seekStream s pos).2 = { bytes := s.bytes, pos := fromEnd s.bytes pos }) := by
  unfold seekStream
  split
  · exact ⟨rfl, (fun e h => by cases h; rfl), fun h => nomatch h⟩
  · rename_i ho
    have ho : s.isOpen = true := by simpa using ho
    split
    · rename_i hp
      split
      · exact ⟨rfl, (fun e h => by cases h; rfl), fun h => nomatch h⟩
      · rename_i hf
        have hf : s.fail = false := by simpa using hf
        split
        · exact ⟨rfl, (fun e h => by cases h; rfl), fun h => nomatch h⟩
        · refine ⟨rfl, (fun e h => nomatch h), fun _ => ?_⟩
          unfold fromEnd
          simp only [hp, if_true, hf, ho]
    · rename_i hp
      simp only
      split
      · exact ⟨seekg_bytes _ _, (fun e h => by cases h; rfl), fun h => nomatch h⟩
      · rename_i hg
        refine ⟨seekg_bytes _ _, (fun e h => nomatch h), fun _ => ?_⟩
        unfold fromEnd
        rw [if_neg hp]
        unfold IStream.seekg at hg ⊢
        cases hf : s.fail with
        | true => simp [hf, IStream.good] at hg
        | false => simp [ho]

theorem readAny_any (cfg : RConfig) (file : List Byte) (m : RaMgr) (s : IStream) (hs : s.bytes = file) :
    Fine cfg file (m.readAny s).1 (m.readAny s).2.1 ∧ (m.readAny s).2.2.list = m.list ∧
    (∀ info data, (m.readAny s).1 = .ok (some (info, data)) → HeldAt file s.pos info data ∧ info.dataLength < 2 ^ 32 ∧ info.uncompressedLength < 2 ^ 32 ∧ (readRecord s m.buf).1 = .ok info) ∧
    ((m.readAny s).1 = .ok none → ∀ info, (readRecord s m.buf).1 ≠ .ok info) := by
  obtain ⟨h1, h2, h3⟩ := readRecord_any s m.buf
  unfold RaMgr.readAny
  split
  · rename_i s1 b1 he
    rw [he] at h1 h2
    exact ⟨⟨h1.trans hs, fun _ => .recordHeader (hs ▸ h2 rfl), fun h => nomatch h⟩, rfl, (fun _ _ h => nomatch h), fun h => nomatch h⟩
  · rename_i e s1 b1 _ he
    rw [he] at h1
    obtain ⟨k1, k2, k3⟩ := seekStream_any (IStream.clear s1) 0
    split
    · rename_i e2 s2 hse
      rw [hse] at k1 k2
      have := k2 e2 rfl
      subst this
      exact ⟨fine_io (k1.trans (h1.trans hs)) (by decide) (by decide), rfl, (fun _ _ h => nomatch h), fun h => nomatch h⟩
    · rename_i s2 hse
      rw [hse] at k1
      exact ⟨fine_ok (k1.trans (h1.trans hs)), rfl, (fun _ _ h => nomatch h), fun _ info => by rw [he]; exact fun h => nomatch h⟩
  · rename_i info s1 b1 he
    rw [he] at h1
    obtain ⟨-, g2, g3, -, -, data, g4, g5⟩ := readRecord_ok s m.buf he
    rw [g4]
    refine ⟨fine_ok (h1.trans hs), rfl, fun i d h => ?_, fun h => nomatch h⟩
    cases h
    exact ⟨hs ▸ g5, g2, g3, by rw [he]⟩

theorem readAccess_any (cfg : RConfig) (file : List Byte) (m : RaMgr) (s : IStream) (hs : s.bytes = file) :
    Fine cfg file (m.readAccess s).1 (m.readAccess s).2.1 ∧
    ((m.readAccess s).1 = .ok true → ∃ info data ra, HeldAt file s.pos info data ∧ info.name = accessName ∧ accessIn data = some ra ∧ (m.readAccess s).2.2.list = m.list ++ [ra]) ∧
    ((m.readAccess s).1 = .ok false → (m.readAccess s).2.2.list = m.list ∧ ∃ buf, ∀ info, (readRecord s buf).1 = .ok info → info.name ≠ accessName) := by
  obtain ⟨h1, h2, h3, h4⟩ := readAny_any cfg file m s hs
  unfold RaMgr.readAccess
  split
  · rename_i e s1 m1 he
    rw [he] at h1
    exact ⟨fine_err h1 h1.bytes, (fun h => nomatch h), fun h => nomatch h⟩
  · rename_i s1 m1 he
    rw [he] at h1 h2 h4
    exact ⟨fine_ok h1.bytes, (fun h => nomatch h), fun _ => ⟨h2, m.buf, fun info h => absurd h (h4 rfl info)⟩⟩
  · rename_i info data s1 m1 he
    rw [he] at h1 h2 h3
    obtain ⟨g1, g2, g3, g4⟩ := h3 info data rfl
    split
    · rename_i hn
      refine ⟨fine_ok h1.bytes, (fun h => nomatch h), fun _ => ⟨h2, m.buf, fun info' h => ?_⟩⟩
      rw [g4] at h; cases h; exact hn
    · rename_i hn
      have hn : info.name = accessName := Decidable.not_not.1 hn
      split
      · rename_i e hr
        have hst : Stored file accessName data := ⟨s.pos, info, g1, hn⟩
        refine ⟨⟨h1.bytes, fun h => ?_, fun h => ?_⟩, (fun h => nomatch h), fun h => nomatch h⟩
        · cases h; exact .access data hst (readBlocks_ub _ _ tame_accessDecoder _ hr)
        · cases h; exact .block _ data (Or.inr hst) (readBlocks_diverge _ _ (fun b hb v => (tame_accessDecoder b hb v).calm) _ (by rw [g1.2.2]; exact g2) hr)
      · rename_i rs ρ d hr
        refine ⟨fine_ok h1.bytes, fun _ => ⟨info, data, ((rs.getLast?).map (·.2)).getD {}, g1, hn, ?_, ?_⟩, fun h => nomatch h⟩
        · unfold accessIn; rw [hr]
        · have h2 : m1.list = m.list := h2
          simp only [h2]

theorem readAccessAt_any (cfg : RConfig) (file : List Byte) (m : RaMgr) (s : IStream) (pos : Int) (hs : s.bytes = file) :
    Fine cfg file (m.readAccessAt s pos).1 (m.readAccessAt s pos).2.1 ∧
    ((m.readAccessAt s pos).1 = .ok true → ∃ info data ra, HeldAt file (fromEnd file pos) info data ∧ info.name = accessName ∧ accessIn data = some ra ∧ (m.readAccessAt s pos).2.2.list = m.list ++ [ra]) ∧
    ((m.readAccessAt s pos).1 = .ok false → (m.readAccessAt s pos).2.2.list = m.list ∧ ∃ buf, ∀ info, (readRecord { bytes := file, pos := fromEnd file pos } buf).1 = .ok info → info.name ≠ accessName) := by
  obtain ⟨k1, k2, k3⟩ := seekStream_any s pos
  unfold RaMgr.readAccessAt
  split
  · rename_i e s1 he
    rw [he] at k1 k2
    have := k2 e rfl
    subst this
    exact ⟨fine_io (k1.trans hs) (by decide) (by decide), (fun h => nomatch h), fun h => nomatch h⟩
  · rename_i s1 he
    rw [he] at k3
    have := k3 rfl
    simp only at this
    subst this
    rw [hs]
    exact readAccess_any cfg file m _ rfl

theorem readIndexAt_any (cfg : RConfig) (hc : SafeCodec cfg.codec) (file : List Byte) (m : RaMgr) (s : IStream) (pos : Int) (hs : s.bytes = file) :
    Fine cfg file (m.readIndexAt cfg.codec s pos).1 (m.readIndexAt cfg.codec s pos).2.1 ∧ (m.readIndexAt cfg.codec s pos).2.2.list = m.list := by
  obtain ⟨k1, k2, k3⟩ := seekStream_any s pos
  unfold RaMgr.readIndexAt
  split
  · rename_i e s1 he
    rw [he] at k1 k2
    have := k2 e rfl
    subst this
    exact ⟨fine_io (k1.trans hs) (by decide) (by decide), rfl⟩
  · rename_i s1 he
    rw [he] at k1
    obtain ⟨h1, h2, h3, h4⟩ := readAny_any cfg file m s1 (k1.trans hs)
    unfold RaMgr.readIndexRecord
    split
    · rename_i e s2 m2 he
      rw [he] at h1 h2
      exact ⟨fine_err h1 h1.bytes, h2⟩
    · rename_i s2 m2 he
      rw [he] at h1 h2
      exact ⟨fine_ok h1.bytes, h2⟩
    · rename_i info data s2 m2 he
      rw [he] at h1 h2 h3
      obtain ⟨g1, g2, g3, g4⟩ := h3 info data rfl
      obtain ⟨hp1, hp2, hp3⟩ := plainData_any hc info data
      split
      · exact ⟨fine_ok h1.bytes, h2⟩
      · rename_i hn
        have hn : info.name = indexName := Decidable.not_not.1 hn
        split
        · rename_i e hpe
          exact ⟨⟨h1.bytes, fun h => absurd (by cases h; exact hpe) hp1, fun h => absurd (by cases h; exact hpe) hp2⟩, h2⟩
        · rename_i plain hpl
          have hl := hp3 plain (by rw [g1.2.2]; exact g2) g3 hpl
          have hrec : Recorded cfg.codec file indexName plain := ⟨s1.pos, info, data, g1, hn, hpl⟩
          split
          · rename_i e hr
            refine ⟨⟨h1.bytes, fun h => ?_, fun h => ?_⟩, h2⟩
            · cases h; exact .index plain hrec (readBlocks_ub _ _ tame_indexDecoder _ hr)
            · cases h; exact .block _ plain (Or.inl hrec) (readBlocks_diverge _ _ (fun b hb v => (tame_indexDecoder b hb v).calm) _ hl hr)
          · exact ⟨fine_ok h1.bytes, h2⟩

theorem recreateLoop_any (cfg : RConfig) (hc : SafeCodec cfg.codec) (file : List Byte) : ∀ fuel (m : RaMgr) (s : IStream), s.bytes = file →
    (RaMgr.recreateLoop cfg.codec fuel m s).2.1.bytes = file ∧ ((RaMgr.recreateLoop cfg.codec fuel m s).1 = .error .ub → Danger cfg file) ∧
    (file.length + 1 ≤ s.pos + fuel → 0 < fuel → (RaMgr.recreateLoop cfg.codec fuel m s).1 = .error .diverge → Stuck cfg file)
  | 0, m, s, hs => ⟨hs, (fun h => nomatch h), fun _ h => absurd h (by omega)⟩
  | fuel+1, m, s, hs => by
    obtain ⟨k1, k2, k3, k4⟩ := skipRecordsLoop_any (fun (_ : Unit) i => ((), notHeader i)) file (recordFuel s) () s (zeros maxRecordInfoLen) hs
    unfold RaMgr.recreateLoop skipRecords
    split
    · rename_i s1 he
      rw [he] at k1
      exact ⟨k1, (fun h => nomatch h), fun _ _ h => nomatch h⟩
    · rename_i e s1 _ he
      rw [he] at k1 k2 k3
      refine ⟨k1, fun h => .recordHeader (k2 (by cases h; rfl)), fun _ _ h => .record (k3 ?_ ?_ (by cases h; rfl))⟩ <;> unfold recordFuel <;> omega
    · rename_i s1 he
      rw [he] at k1 k4
      have hmove := k4 rfl
      simp only at k1 hmove
      obtain ⟨h1, h2, h3⟩ := readRecord_any s1 m.buf
      split
      · rename_i s2 b2 hr
        rw [hr] at h1
        exact ⟨h1.trans k1, (fun h => nomatch h), fun _ _ h => nomatch h⟩
      · rename_i e s2 b2 _ hr
        rw [hr] at h1 h2 h3
        exact ⟨h1.trans k1, fun h => .recordHeader (k1 ▸ h2 (by cases h; rfl)), fun _ _ h => absurd (by cases h; rfl) h3⟩
      · rename_i info s2 b2 hr
        rw [hr] at h1
        obtain ⟨g1, g2, g3, gin, gmove, data, g4, g5⟩ := readRecord_ok s1 m.buf hr
        have hb2 : s2.bytes = file := h1.trans k1
        rw [k1] at g5 gin gmove
        simp only [g4]
        have hrest := fun m' => recreateLoop_any cfg hc file fuel m' s2 hb2
        have hstep : ∀ m', (RaMgr.recreateLoop cfg.codec fuel m' s2).2.1.bytes = file ∧ ((RaMgr.recreateLoop cfg.codec fuel m' s2).1 = .error .ub → Danger cfg file) ∧
            (file.length + 1 ≤ s.pos + (fuel + 1) → 0 < fuel + 1 → (RaMgr.recreateLoop cfg.codec fuel m' s2).1 = .error .diverge → Stuck cfg file) := by
          intro m'
          obtain ⟨r1, r2, r3⟩ := hrest m'
          refine ⟨r1, r2, fun q1 q2 h => ?_⟩
          rcases hmove with hm | hm
          · rcases gmove with hg | hg
            · refine r3 ?_ ?_ h
              · have : s2.pos = info.fileEnd := by rw [g1]
                omega
              · omega
            · exact .record hg
          · exact .record hm
        obtain ⟨hp1, hp2, hp3⟩ := plainData_any hc info data
        split
        · rename_i e hpe
          exact ⟨hb2, fun h => absurd (by cases h; exact hpe) hp1, fun _ _ h => absurd (by cases h; exact hpe) hp2⟩
        · rename_i plain hpl
          have hl := hp3 plain (by rw [g5.2.2]; exact g2) g3 hpl
          split
          · rename_i hn
            have hrec : Recorded cfg.codec file headerRecordName plain := ⟨s1.pos, info, data, g5, hn, hpl⟩
            split
            · rename_i e hd
              refine ⟨hb2, fun h => ?_, fun _ _ h => ?_⟩
              · cases h; exact .header plain _ (.inr rfl) hrec (readBlocks_ub _ _ (tame_headerDecoder _) _ hd)
              · cases h; exact .block _ plain (Or.inl hrec) (readBlocks_diverge _ _ (fun b hb v => (tame_headerDecoder _ b hb v).calm) _ hl hd)
            · exact hstep _
          · split
            · rename_i hn
              have hrec : Stored file runRecordName data := ⟨s1.pos, info, g5, hn⟩
              split
              · rename_i e hd
                refine ⟨hb2, fun h => ?_, fun _ _ h => ?_⟩
                · cases h; exact .run data (Or.inr hrec) (readBlocks_ub _ _ tame_runDecoder _ hd)
                · cases h; exact .block _ data (Or.inr hrec) (readBlocks_diverge _ _ (fun b hb v => (tame_runDecoder b hb v).calm) _ (by rw [g5.2.2]; exact g2) hd)
              · exact hstep _
            · exact hstep _

theorem recreateEventMap_any (cfg : RConfig) (hc : SafeCodec cfg.codec) (file : List Byte) (m : RaMgr) (s : IStream) (hs : s.bytes = file) :
    Fine cfg file (m.recreateEventMap cfg.codec s).1 (m.recreateEventMap cfg.codec s).2.1 := by
  obtain ⟨k1, k2, k3⟩ := seekStream_any s 0
  unfold RaMgr.recreateEventMap
  split
  · rename_i e s1 he
    rw [he] at k1 k2
    have := k2 e rfl
    subst this
    exact fine_io (k1.trans hs) (by decide) (by decide)
  · rename_i s1 he
    rw [he] at k1
    simp only at k1
    obtain ⟨r1, r2, r3⟩ := recreateLoop_any cfg hc file (recordFuel s1) m s1 (k1.trans hs)
    split
    · rename_i e s2 m2 hr
      rw [hr] at r1 r2 r3
      refine ⟨r1, fun h => r2 (by cases h; rfl), fun h => r3 ?_ ?_ (by cases h; rfl)⟩ <;> unfold recordFuel <;> (try rw [k1, hs]) <;> omega
    · rename_i s2 m2 hr
      rw [hr] at r1
      obtain ⟨j1, j2, j3⟩ := seekStream_any s2 0
      split
      · rename_i e s3 he
        rw [he] at j1 j2
        have := j2 e rfl
        subst this
        exact fine_io (j1.trans r1) (by decide) (by decide)
      · rename_i s3 he
        rw [he] at j1
        exact fine_ok (j1.trans r1)

theorem length_le_of_nodup : ∀ (n : Nat) (l : List Nat), l.Nodup → (∀ x ∈ l, x < n) → l.length ≤ n
  | 0, [], _, _ => Nat.le_refl _
  | 0, x :: l, _, h => absurd (h x (by simp)) (by omega)
  | n+1, l, hn, h => by
    have ih := length_le_of_nodup n (l.erase n) (hn.erase n) (by
      intro x hx
      have h1 := h x (List.mem_of_mem_erase hx)
      have h2 : x ≠ n := ((List.Nodup.mem_erase_iff hn).1 hx).1
      omega)
    have : l.length ≤ (l.erase n).length + 1 := by
      rw [List.length_erase]; split <;> omega
    omega

/-- The chain of random access records: it ends, or goes through as many records as there is fuel. -/
theorem chainLoop_any (cfg : RConfig) (hc : SafeCodec cfg.codec) (file : List Byte) : ∀ fuel raPos (m : RaMgr) (s : IStream), s.bytes = file →
    (RaMgr.chainLoop cfg.codec fuel raPos m s).2.1.bytes = file ∧ ((RaMgr.chainLoop cfg.codec fuel raPos m s).1 = .error .ub → Danger cfg file) ∧
    ((RaMgr.chainLoop cfg.codec fuel raPos m s).1 = .error .diverge → Stuck cfg file ∨
      ∃ ps : List Nat, ps.length = fuel ∧ (∀ p ∈ ps, p < file.length) ∧ (∀ p, ps[0]? = some p → raPos ≠ 0 ∧ p = fromEnd file raPos.toInt) ∧
        ∀ i p q, ps[i]? = some p → ps[i + 1]? = some q → Leads file p q)
  | 0, raPos, m, s, hs => ⟨hs, (fun h => nomatch h), fun _ => Or.inr ⟨[], rfl, by simp, by simp, by simp⟩⟩
  | fuel+1, raPos, m, s, hs => by
    unfold RaMgr.chainLoop
    split
    · exact ⟨hs, (fun h => nomatch h), fun h => nomatch h⟩
    · rename_i hpos
      obtain ⟨a1, a2, a3⟩ := readAccessAt_any cfg file m s raPos.toInt hs
      split
      · rename_i e s1 m1 he
        rw [he] at a1
        have := fine_err (β := Unit) a1 a1.bytes
        exact ⟨a1.bytes, this.ub, fun h => Or.inl (this.ends h)⟩
      · rename_i s1 m1 he
        rw [he] at a1
        exact ⟨a1.bytes, (fun h => nomatch h), fun h => nomatch h⟩
      · rename_i s1 m1 he
        rw [he] at a1 a2
        obtain ⟨info, data, ra, g1, g2, g3, g4⟩ := a2 rfl
        simp only at g4
        have hlast : m1.list.getLast? = some ra := by rw [g4]; simp
        rw [hlast]
        simp only
        obtain ⟨b1, b2⟩ := readIndexAt_any cfg hc file m1 s1 ra.indexLoc.toInt a1.bytes
        split
        · rename_i e s2 m2 he2
          rw [he2] at b1
          have := fine_err (β := Unit) b1 b1.bytes
          exact ⟨b1.bytes, this.ub, fun h => Or.inl (this.ends h)⟩
        · rename_i x s2 m2 he2
          rw [he2] at b1
          obtain ⟨c1, c2, c3⟩ := chainLoop_any cfg hc file fuel ra.prevLoc m2 s2 b1.bytes
          refine ⟨c1, c2, fun h => ?_⟩
          rcases c3 h with h | ⟨ps, d1, d2, d3, d4⟩
          · exact Or.inl h
          · refine Or.inr ⟨fromEnd file raPos.toInt :: ps, by simp [d1], ?_, ?_, ?_⟩
            · intro p hp
              rcases List.mem_cons.1 hp with rfl | hp
              · obtain ⟨⟨buf, hb⟩, -, -⟩ := g1
                have := (readRecordInfo_ok _ buf (info := info) (s' := (readRecordInfo { bytes := file, pos := fromEnd file raPos.toInt } buf).2.1)
                  (buf' := (readRecordInfo { bytes := file, pos := fromEnd file raPos.toInt } buf).2.2) (by rw [← hb])).inside
                simp only at this
                omega
              · exact d2 p hp
            · intro p hp
              simp only [List.getElem?_cons_zero, Option.some.injEq] at hp
              exact ⟨hpos, hp.symm⟩
            · intro i p q hp hq
              cases i with
              | zero =>
                simp only [List.getElem?_cons_zero, Option.some.injEq, List.getElem?_cons_succ] at hp hq
                obtain ⟨e1, e2⟩ := d3 q hq
                subst hp
                exact ⟨info, data, ra, g1, g2, g3, e1, e2⟩
              | succ i =>
                simp only [List.getElem?_cons_succ] at hp hq
                exact d4 i p q hp hq

theorem cycle_of_path (file : List Byte) (ps : List Nat) (h1 : file.length < ps.length) (h2 : ∀ p ∈ ps, p < file.length)
    (h3 : ∀ i p q, ps[i]? = some p → ps[i + 1]? = some q → Leads file p q) : Cycle file := by
  by_cases hn : ps.Nodup
  · exact absurd (length_le_of_nodup _ ps hn h2) (by omega)
  · have : ∃ i j, ∃ (hi : i < ps.length) (hj : j < ps.length), i < j ∧ ps[i] = ps[j] := by
      rw [List.Nodup, List.pairwise_iff_getElem] at hn
      simp only [Classical.not_forall, Decidable.not_not] at hn
      obtain ⟨i, j, hi, hj, hij, h⟩ := hn
      exact ⟨i, j, hi, hj, hij, h⟩
    obtain ⟨i, j, hi, hj, hij, h⟩ := this
    refine ⟨(ps.drop i).take (j - i + 1), ?_, ?_, ?_⟩
    · simp; omega
    · have hl : ((ps.drop i).take (j - i + 1)).length = j - i + 1 := by simp; omega
      rw [List.getLast?_eq_getElem?, List.head?_eq_getElem?, hl]
      rw [List.getElem?_take_of_lt (by omega), List.getElem?_take_of_lt (by omega), List.getElem?_drop, List.getElem?_drop]
      have e1 : i + (j - i + 1 - 1) = j := by omega
      rw [e1, Nat.add_zero, List.getElem?_eq_getElem hi, List.getElem?_eq_getElem hj, h]
    · intro k p q hp hq
      have hk : k + 1 < j - i + 1 := by
        have := (List.getElem?_eq_some_iff.1 hq).1
        simp at this
        omega
      rw [List.getElem?_take_of_lt (by omega), List.getElem?_drop] at hp hq
      exact h3 (i + k) p q hp hq

theorem createEventMap_any (cfg : RConfig) (hc : SafeCodec cfg.codec) (file : List Byte) (m : RaMgr) (s : IStream) (hs : s.bytes = file) :
    Fine cfg file (m.createEventMap cfg.codec s).1 (m.createEventMap cfg.codec s).2.1 := by
  obtain ⟨a1, a2, a3⟩ := readAccessAt_any cfg file m s (-(randomAccessSize : Int)) hs
  unfold RaMgr.createEventMap
  split
  · rename_i e s1 m1 he
    rw [he] at a1
    exact fine_err a1 a1.bytes
  · rename_i s1 m1 he
    rw [he] at a1
    exact recreateEventMap_any cfg hc file m1 s1 a1.bytes
  · rename_i s1 m1 he
    rw [he] at a1 a2
    obtain ⟨info, data, f, g1, g2, g3, g4⟩ := a2 rfl
    simp only at g4
    have hlast : m1.list.getLast? = some f := by rw [g4]; simp
    rw [hlast]
    simp only
    obtain ⟨b1, b2, b3⟩ := readAccessAt_any cfg file { m1 with file := some f, list := m1.list.dropLast } s1 f.nextLoc.toInt a1.bytes
    split
    · rename_i e s2 m2 he2
      rw [he2] at b1
      exact fine_err b1 b1.bytes
    · rename_i x s2 m2 he2
      rw [he2] at b1 b2 b3
      split
      · rename_i hnone
        refine ⟨b1.bytes, fun _ => .lost ⟨info, data, f, ?_, g2, g3, ?_⟩, fun h => nomatch h⟩
        · have : fromEnd file (-(randomAccessSize : Int)) = file.length - randomAccessSize := by
            unfold fromEnd randomAccessSize
            simp
            omega
          rw [← this]
          exact g1
        · cases x with
          | false => exact (b3 rfl).2
          | true =>
            obtain ⟨_, _, ra, _, _, _, h⟩ := b2 rfl
            simp only at h
            rw [h] at hnone
            simp at hnone
      · rename_i ra hra
        obtain ⟨c1, c2⟩ := readIndexAt_any cfg hc file m2 s2 ra.indexLoc.toInt b1.bytes
        split
        · rename_i e s3 m3 he3
          rw [he3] at c1
          exact fine_err c1 c1.bytes
        · rename_i y s3 m3 he3
          rw [he3] at c1
          obtain ⟨d1, d2, d3⟩ := chainLoop_any cfg hc file (recordFuel s3) ra.prevLoc m3 s3 c1.bytes
          split
          · rename_i e s4 m4 he4
            rw [he4] at d1 d2 d3
            refine ⟨d1, fun h => d2 (by cases h; rfl), fun h => ?_⟩
            rcases d3 (by cases h; rfl) with h | ⟨ps, p1, p2, p3, p4⟩
            · exact h
            · refine .cycle (cycle_of_path file ps ?_ p2 p4)
              have := c1.bytes
              simp only at this
              unfold recordFuel at p1
              rw [this] at p1
              omega
          · rename_i s4 m4 he4
            rw [he4] at d1
            obtain ⟨j1, j2, j3⟩ := seekStream_any s4 0
            split
            · rename_i e s5 he5
              rw [he5] at j1 j2
              have := j2 e rfl
              subst this
              exact fine_io (j1.trans d1) (by decide) (by decide)
            · rename_i s5 he5
              rw [he5] at j1
              exact fine_ok (j1.trans d1)

end Lcio
