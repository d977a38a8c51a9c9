import Verif.Lcio.CursorLemmas
import Verif.Lcio.LazyLemmas
import Verif.Lcio.Float
/-
C45: lazy unpacking shows the same collections as immediate unpacking.
-/
namespace Props
open Sio Lcio Spec

/-- The event record `info`, `buf` belongs to an event with header `h`, and a reader without lazy unpacking decodes it to the event `(h, cols)`. -/
def Unpacks (cfg : RConfig) (h : EventHeader) (info : RecordInfo) (buf : List Byte) (cols : List (Str × Collection)) : Prop :=
  info.headerLength ≤ buf.length ∧ ∃ data cols0, plainData cfg.codec info (buf.drop info.headerLength) = .ok data ∧ decodeCollections cfg h data = .ok cols0 ∧
    finishEvent cfg (h, cols0) = .ok (h, cols)

theorem finish_inv {cfg : RConfig} {h : EventHeader} {cols0 cols : List (Str × Collection)} (hf : finishEvent cfg (h, cols0) = .ok (h, cols)) :
    postProcess cfg.ignoreNull cols0 = .ok cols := by
  unfold finishEvent at hf
  simp only at hf
  split at hf
  · cases hf
  · rename_i c hc
    rw [hc]
    cases hf
    rfl

/-- If a reader without lazy unpacking decodes the event record, then an event with lazy unpacking gives the same answers and shows the same contents of
collections as the decoded event, for every careful sequence of calls: adding and removing only after a collection was asked for, and no second removal
after one that hit a stored collection other than the last one.
Missing: the other sequences, for which it is false, see below; compressed records of length zero. -/
theorem C45_calls_partial (cfg : RConfig) (h : EventHeader) (others : Nat → Collection) (info : RecordInfo) (buf : List Byte) (cols : List (Str × Collection))
    (hu : Unpacks cfg h info buf cols) (h0 : ¬(isCompressed info.options = true ∧ info.uncompressedLength = 0)) (cs : List EventCall)
    (hc : Careful (h.cols.map (·.1)) false cs) : ((LazyEvent.make h others info buf).calls cfg cs).1 = ((FullEvent.make (h, cols) others).calls cs).1 := by
  obtain ⟨hl, data, cols0, hd, hcol, hf⟩ := hu
  exact calls_make cfg h others info buf data cols0 cols h0 hl hd hcol (finish_inv hf) cs _ rfl hc

/-- A reader with lazy unpacking finds the same next event as one without, at the same place of the file, if the latter can decode it and there is no
further file (otherwise the latter goes on with the next file if decoding fails at the end of the data). -/
theorem C45_reader_partial (cfg : RConfig) (r r' : Reader) (e : EventData) (hn : r.hasNext = false) (hr : r.readNextEvent cfg = (.ok (some e), r')) :
    ∃ info buf, r.readNextLazy cfg = (.ok (some (e.1, info, buf)), r') ∧ Unpacks cfg e.1 info buf e.2 := by
  unfold Reader.readNextEvent Reader.readNextEventLoop at hr
  unfold Reader.readNextLazy Reader.readLazyLoop
  cases hq : readRecords (fun (st : EventState) i => (st, isEventRecord i)) (eventProcessor cfg) (recordFuel r.stream) {} r.stream r.buf with
  | mk st p =>
    obtain ⟨res, s, buf⟩ := p
    rw [hq] at hr
    cases res with
    | error x =>
      have hn' : ({ r with stream := s, buf := buf } : Reader).hasNext = false := hn
      cases x <;> simp [hn'] at hr
    | ok u =>
      obtain ⟨t, ht, hR⟩ := readRecords_sim isEventRecord (eventProcessor cfg) (lazyProcessor cfg) (SameState cfg) (fun s t i d b => sameState_step cfg s t i d b)
        _ {} {} _ _ _ _ _ ⟨rfl, trivial⟩ hq
      simp only [ht]
      simp only at hr
      cases he : st.evt with
      | none => rw [he] at hr; cases hr
      | some ev =>
        rw [he] at hr
        simp only at hr
        cases hf : finishEvent cfg ev with
        | error x => rw [hf] at hr; cases hr
        | ok ev' =>
          rw [hf] at hr
          simp only [Prod.mk.injEq, Except.ok.injEq, Option.some.injEq] at hr
          obtain ⟨rfl, rfl⟩ := hr
          obtain ⟨-, hR⟩ := hR
          rw [he] at hR
          cases hte : t.evt with
          | none => rw [hte] at hR; exact hR.elim
          | some x =>
            obtain ⟨h, info, b⟩ := x
            rw [hte] at hR
            obtain ⟨h1, data, d, hb, hd, hc⟩ := hR
            have hh : ev'.1 = ev.1 := by
              unfold finishEvent at hf
              split at hf
              · cases hf
              · cases hf; rfl
            refine ⟨info, b, by rw [hh, h1], by rw [hb]; simp, d, ev.2, by rw [hb]; simpa using hd, ?_, ?_⟩
            · rw [hh, h1]; exact hc
            · rw [hh]; exact hf.trans (by rw [← hh])

/-- If the event record cannot be decoded, then every call of `getCollection` and `takeCollection` throws the exception that the reader without lazy
unpacking throws. -/
theorem C45_error (cfg : RConfig) (h : EventHeader) (others : Nat → Collection) (info : RecordInfo) (buf data : List Byte) (x : Err)
    (h0 : ¬(isCompressed info.options = true ∧ info.uncompressedLength = 0)) (hl : info.headerLength ≤ buf.length)
    (hd : plainData cfg.codec info (buf.drop info.headerLength) = .ok data) (hc : decodeCollections cfg h data = .error x) (names : List (Str × Bool)) :
    ((LazyEvent.make h others info buf).calls cfg (names.map fun n => if n.2 then .take n.1 else .get n.1)).1 = names.map fun _ => (.threw x, none) := by
  have h0' : (isCompressed info.options && info.uncompressedLength == 0) = false := by
    rw [Bool.eq_false_iff]; intro h'; rw [Bool.and_eq_true, beq_iff_eq] at h'; exact h0 h'
  have hr : readBlocks data (eventDecoders cfg.std h.cols) = .error x := by
    unfold decodeCollections at hc
    split at hc
    · rename_i e he; rw [he]; cases hc; rfl
    · cases hc
  have hu : (LazyEvent.make h others info buf).unpack cfg = (.error x, LazyEvent.make h others info buf) := by
    have hs : readShared data (((newMap h.cols).map some).map
        (Option.map fun b => (⟨b.1, Collection.read cfg.std (newMem h.cols others b.2).type⟩ : RBlock Collection))) = .error x := by
      rw [blocks_decoders, readShared_some]; exact hr
    unfold LazyEvent.unpack
    simp only [LazyEvent.make, Bool.false_eq_true, if_false, h0', Nat.not_lt.mpr hl, hd, hs]
  induction names with
  | nil => rfl
  | cons n names ih =>
    have : ∀ c : EventCall, c = (if n.2 then .take n.1 else .get n.1) → (LazyEvent.make h others info buf).call cfg c = ((.threw x, none), LazyEvent.make h others info buf) := by
      intro c hc
      cases hn : n.2 <;> rw [hn] at hc <;> simp only [Bool.false_eq_true, if_false, if_true] at hc <;> subst hc <;> simp only [LazyEvent.call, hu]
    simp only [List.map_cons, LazyEvent.calls, this _ rfl, ih]

/-! ## Where it fails -/

/-- `removeCollection` of a stored collection that is not the last one, on an event in any state, read-only or not: every later `removeCollection`
dereferences a null pointer. -/
theorem C45_fails_for_second_removal (cfg : RConfig) (e : LazyEvent) (l₁ l₂ : List (Str × Nat)) (a b : Str × Nat) (hb : e.blocks = (l₁ ++ a :: (l₂ ++ [b])).map some)
    (hn : ∀ x ∈ l₁ ++ (l₂ ++ [b]), x.1 ≠ a.1) (n : Str) : ∃ s e', e.call cfg (.remove a.1) = (s, e') ∧ e'.call cfg (.remove n) = ((.threw .ub, none), e') := by
  have hr := removeIf_mid (fun x : Str × Nat => x.1 == a.1) l₁ l₂ a b (fun x hx => by simpa using hn x (by simp [hx])) (by simp) (fun x hx => by simpa using hn x (by simp [hx]))
    (by simpa using hn b (by simp))
  refine ⟨_, _, call_remove cfg e a.1 _ (by rw [hb]; exact hr), ?_⟩
  have : ∀ p : Str × Nat → Bool, removeIf p ((l₁ ++ (l₂ ++ [b])).map some ++ [none]) = .error .ub := by
    intro p
    have : ∀ l : List (Str × Nat), (l.map some ++ [none]).mapM id = (none : Option (List (Str × Nat))) := by
      intro l
      induction l with
      | nil => rfl
      | cons x l ih => simp [List.mapM_cons, ih]
    unfold removeIf
    rw [this]
  simp only [LazyEvent.call, this]

/-- `removeCollection` of a stored collection that is not the last one before any collection was asked for: if the record holds the collection, then asking
for any collection dereferences a null pointer. This is also the case if the event is read-only and the removal was refused. -/
theorem C45_fails_for_removal (cfg : RConfig) (h : EventHeader) (others : Nat → Collection) (info : RecordInfo) (buf data : List Byte) (ro : Bool)
    (l₁ l₂ : List (Str × ColHead)) (a b : Str × ColHead) (hh : h.cols = l₁ ++ a :: (l₂ ++ [b])) (hn : ∀ x ∈ l₁ ++ (l₂ ++ [b]), x.1 ≠ a.1)
    (h0 : ¬(isCompressed info.options = true ∧ info.uncompressedLength = 0)) (hl : info.headerLength ≤ buf.length)
    (hd : plainData cfg.codec info (buf.drop info.headerLength) = .ok data) (results : List (Str × Collection)) (ρ : Nat → Nat) (dev : RDev)
    (hr : readBlocks data (eventDecoders cfg.std h.cols) = .ok (results, ρ, dev)) (ha : a.1 ∈ results.map (·.1)) (m : Str) :
    ((LazyEvent.make h others info buf).calls cfg [.setAccessMode ro, .remove a.1, .get m]).1 =
      [(.done, none), (if ro then .threw .readOnly else .done, none), (.threw .ub, none)] := by
  have h0' : (isCompressed info.options && info.uncompressedLength == 0) = false := by
    rw [Bool.eq_false_iff]; intro h'; rw [Bool.and_eq_true, beq_iff_eq] at h'; exact h0 h'
  have hnames := newMap_names h.cols
  obtain ⟨m₁, A, m₂, B, hm, hA, hmn⟩ : ∃ m₁ A m₂ B, newMap h.cols = m₁ ++ A :: (m₂ ++ [B]) ∧ A.1 = a.1 ∧ ∀ x ∈ m₁ ++ (m₂ ++ [B]), x.1 ≠ a.1 := by
    have e := hnames
    rw [hh, List.map_append, List.map_cons, List.map_append, List.map_singleton] at e
    obtain ⟨m₁, r, e1, e2, e3⟩ := List.map_eq_append_iff.1 e
    obtain ⟨A, r, rfl, e4, e5⟩ := List.map_eq_cons_iff.1 e3
    obtain ⟨m₂, r, rfl, e6, e7⟩ := List.map_eq_append_iff.1 e5
    obtain ⟨B, r, rfl, e8, e9⟩ := List.map_eq_cons_iff.1 e7
    rw [List.map_eq_nil_iff] at e9
    subst e9
    refine ⟨m₁, A, m₂, B, by rw [hh]; exact e1, e4, fun x hx hxa => ?_⟩
    have hx' : x.1 ∈ (l₁ ++ (l₂ ++ [b])).map (·.1) := by
      rw [List.map_append, List.map_append, List.map_singleton, ← e2, ← e6, ← e8]
      have := List.mem_map_of_mem (f := (·.1)) hx
      simpa using this
    obtain ⟨y, hy, hyx⟩ := List.mem_map.1 hx'
    exact hn y hy (hyx.trans hxa)
  have hrem : removeIf (fun x : Str × Nat => x.1 == a.1) ((newMap h.cols).map some) = .ok ((m₁ ++ (m₂ ++ [B])).map some ++ [none]) := by
    rw [hm]
    exact removeIf_mid _ m₁ m₂ A B (fun x hx => by simpa using hmn x (by simp [hx])) (by simp [hA]) (fun x hx => by simpa using hmn x (by simp [hx]))
      (by simpa using hmn B (by simp))
  let f : Str × Nat → RBlock Collection := fun b => ⟨b.1, Collection.read cfg.std (newMem h.cols others b.2).type⟩
  have hdec : (newMap h.cols).map f = eventDecoders cfg.std h.cols := by
    have e := blocks_decoders cfg.std h.cols others
    rw [List.map_map] at e
    have e' : ((newMap h.cols).map f).map some = (eventDecoders cfg.std h.cols).map some := by
      rw [← e, List.map_map]; rfl
    exact (List.map_inj_right fun _ _ h => Option.some.inj h).1 e'
  have hub : readShared data (((m₁ ++ (m₂ ++ [B])).map some ++ [none]).map (Option.map f)) = .error .ub := by
    have e : ((m₁ ++ (m₂ ++ [B])).map some ++ [none]).map (Option.map f) = ((m₁ ++ (m₂ ++ [B])).map f).map some ++ [none] := by
      simp only [List.map_append, List.map_map, List.map_cons, List.map_nil, Option.map_none, Option.map_some]
      rfl
    rw [e]
    unfold readBlocks at hr
    unfold readShared
    cases hloop : readBlocksLoop data (eventDecoders cfg.std h.cols) (data.length + 1) 0 { buf := [], next := 1 } with
    | error x => rw [hloop] at hr; cases hr
    | ok q =>
      obtain ⟨res, dev1⟩ := q
      have hres : res = results := by
        rw [hloop] at hr
        simp only [bind, Except.bind] at hr
        split at hr
        · cases hr
        · simp only [pure, Except.pure, Except.ok.injEq, Prod.mk.injEq] at hr; exact hr.1
      rw [readSharedLoop_null data (eventDecoders cfg.std h.cols) ((m₁ ++ (m₂ ++ [B])).map f) a.1 ?_ ?_ _ _ _ _ _ hloop (by rw [hres]; exact ha)]
      · rfl
      · intro x hx
        obtain ⟨y, hy, rfl⟩ := List.mem_map.1 hx
        simpa [f] using hmn y hy
      · intro k hk
        rw [← hdec, hm]
        simp only [List.map_append, List.map_cons, List.find?_append, List.find?_cons]
        have : ((f A).name == k) = false := by
          rw [beq_eq_false_iff_ne]
          intro h'
          exact hk (h'.symm.trans hA)
        rw [this]
  have hcall : ∀ obj : EventObj, obj.colMap = newMap h.cols → ∃ obj', ({ LazyEvent.make h others info buf with obj := obj } : LazyEvent).call cfg (.remove a.1) =
      ((if obj.readOnly then .threw .readOnly else .done, none),
        { LazyEvent.make h others info buf with obj := obj', blocks := (m₁ ++ (m₂ ++ [B])).map some ++ [none] }) := by
    intro obj ho
    refine ⟨(obj.call (.remove a.1)).2, (call_remove cfg _ a.1 _ hrem).trans ?_⟩
    cases hro : obj.readOnly <;> simp [FullEvent.call, EventObj.call, EventObj.removeCollection, hro]
  have hget : ∀ obj' : EventObj, (({ LazyEvent.make h others info buf with obj := obj', blocks := (m₁ ++ (m₂ ++ [B])).map some ++ [none] } : LazyEvent).call cfg (.get m)).1 =
      (.threw .ub, none) := by
    intro obj'
    simp only [LazyEvent.call, LazyEvent.unpack, LazyEvent.make, Bool.false_eq_true, if_false, h0', Nat.not_lt.mpr hl, hd]
    have hub' := hub
    simp only [f] at hub'
    rw [hub']
  obtain ⟨obj', hc⟩ := hcall { colMap := newMap h.cols, readOnly := ro } rfl
  have h1 : (LazyEvent.make h others info buf).call cfg (.setAccessMode ro) =
      ((.done, none), { LazyEvent.make h others info buf with obj := { colMap := newMap h.cols, readOnly := ro } }) := rfl
  simp only [LazyEvent.calls, h1, hc, hget]

/-- Without lazy unpacking an event with a null pointer in a subset is not handed out: `readNextEvent` throws. With lazy unpacking the first call that asks
for a collection throws, and all later ones return it. -/
theorem C45_fails_for_null (cfg : RConfig) (h : EventHeader) (others : Nat → Collection) (info : RecordInfo) (buf data : List Byte) (cols cols' : List (Str × Collection))
    (h0 : ¬(isCompressed info.options = true ∧ info.uncompressedLength = 0)) (hl : info.headerLength ≤ buf.length)
    (hd : plainData cfg.codec info (buf.drop info.headerLength) = .ok data) (hc : decodeCollections cfg h data = .ok cols)
    (hrest : restoreRelations cols = .ok cols') (hi : cfg.ignoreNull = false) (hnull : ∃ c ∈ cols', c.2.flag.getLsbD 18 = true ∧ ∃ e ∈ c.2.elems, e.addr = 0)
    (n m : Str) (hm : m ∈ h.cols.map (·.1)) : finishEvent cfg (h, cols) = .error .lcException ∧
      ∃ a c, ((LazyEvent.make h others info buf).calls cfg [.get n, .get m]).1 = [(.threw .lcException, none), (.collection a, some c)] := by
  have h0' : (isCompressed info.options && info.uncompressedLength == 0) = false := by
    rw [Bool.eq_false_iff]; intro h'; rw [Bool.and_eq_true, beq_iff_eq] at h'; exact h0 h'
  have hany : (!cfg.ignoreNull && cols'.any (fun c => c.2.flag.getLsbD 18 && c.2.elems.any (·.addr == 0))) = true := by
    obtain ⟨c, hc1, hc2, e, he1, he2⟩ := hnull
    rw [hi]
    simp only [Bool.not_false, Bool.true_and, List.any_eq_true, Bool.and_eq_true, beq_iff_eq]
    exact ⟨c, hc1, hc2, e, he1, he2⟩
  refine ⟨by simp only [finishEvent, postProcess, hrest, hany, if_true], ?_⟩
  unfold decodeCollections at hc
  cases hr : readBlocks data (eventDecoders cfg.std h.cols) with
  | error x => rw [hr] at hc; cases hc
  | ok r =>
    obtain ⟨results, ρ, dev⟩ := r
    rw [hr] at hc
    simp only [Except.ok.injEq] at hc
    have hs : readShared data (((newMap h.cols).map some).map
        (Option.map fun b => (⟨b.1, Collection.read cfg.std (newMem h.cols others b.2).type⟩ : RBlock Collection))) = .ok (results, ρ, dev) := by
      rw [blocks_decoders, readShared_some]; exact hr
    obtain ⟨e', hu, ho, hun⟩ : ∃ e', (LazyEvent.make h others info buf).unpack cfg = (.error .lcException, e') ∧ e'.obj.colMap = newMap h.cols ∧ e'.unpacked = true := by
      have hcols : ({ obj := { colMap := newMap h.cols }, mem := fillBlocks ((newMap h.cols).map some) (results.map fun c => (c.1, c.2.mapPtr ρ)) (newMem h.cols others) } : FullEvent).cols = cols := by
        rw [← hc, ← fill_cols h.cols _ others]; rfl
      refine ⟨{ LazyEvent.make h others info buf with mem := store (newMap h.cols) cols' (fillBlocks ((newMap h.cols).map some)
          (results.map fun c => (c.1, c.2.mapPtr ρ)) (newMem h.cols others)), record := some (info, []), unpacked := true }, ?_, rfl, rfl⟩
      unfold LazyEvent.unpack
      simp only [LazyEvent.make, Bool.false_eq_true, if_false, h0', Nat.not_lt.mpr hl, hd, hs, hcols, hrest, if_pos hany]
    have hg : e'.obj.getCollection m ≠ .error .notAvailable := by
      unfold EventObj.getCollection
      intro hx
      split at hx
      · rename_i hf
        rw [omFind_none_str, ho, newMap_names] at hf
        exact hf hm
      · cases hx
    obtain ⟨a, ha⟩ : ∃ a, e'.obj.getCollection m = .ok a := by
      unfold EventObj.getCollection at hg ⊢
      split at hg
      · exact absurd rfl hg
      · exact ⟨_, rfl⟩
    have h1 : (LazyEvent.make h others info buf).call cfg (.get n) = ((.threw .lcException, none), e') := by
      simp only [LazyEvent.call, hu]
    have h2 : (e'.call cfg (.get m)).1 = (.collection a, some (e'.mem a)) := by
      rw [call_done cfg e' hun (.get m) rfl]
      simp only [FullEvent.call, EventObj.call, ha]
    exact ⟨a, e'.mem a, by simp only [LazyEvent.calls, h1, h2]⟩

/-- An event without collections in a compressed record: a reader without lazy unpacking hands out an event that throws `DataNotAvailableException`; with lazy
unpacking another exception is thrown, because no buffer of length zero can be made. -/
theorem C45_fails_for_empty (cfg : RConfig) (h : EventHeader) (hh : h.cols = []) (others : Nat → Collection) (info : RecordInfo) (buf : List Byte)
    (hl : info.headerLength ≤ buf.length) (h0 : isCompressed info.options = true ∧ info.uncompressedLength = 0)
    (hz : cfg.codec.uncompress (buf.drop info.headerLength) 0 = .ok []) (n : Str) : Unpacks cfg h info buf [] ∧
    ((FullEvent.make (h, []) others).calls [.get n]).1 = [(.threw .notAvailable, none)] ∧
    ((LazyEvent.make h others info buf).calls cfg [.get n]).1 = [(.threw .invalidArgument, none)] := by
  refine ⟨⟨hl, [], [], ?_, ?_, ?_⟩, ?_, ?_⟩
  · simp only [plainData, h0.1, if_true, h0.2, hz]
  · simp only [decodeCollections, hh]; rfl
  · simp [finishEvent, postProcess, restoreRelations, restoreFrom]
  · simp only [FullEvent.calls, FullEvent.make, hh]; rfl
  · have : (isCompressed info.options && info.uncompressedLength == 0) = true := by rw [h0.1, h0.2]; rfl
    simp only [LazyEvent.calls, LazyEvent.call, LazyEvent.unpack, LazyEvent.make, Bool.false_eq_true, if_false, this, if_true]

/-- An event record without an event header before it is refused by both readers, at the next event, unless it cannot even be uncompressed by the reader without lazy unpacking. -/
theorem C45_orphan (cfg : RConfig) (r : Reader) (pre : List Byte) (x : Rec) (rs : List Rec) (hx : ∀ y ∈ x :: rs, y.Ok)
    (hr : r.stream = ready (pre ++ fileOf (x :: rs)) pre.length) (hn : x.name = eventRecordName) (data : List Byte)
    (hd : plainData cfg.codec (x.info pre.length) x.data = .ok data) :
    (r.readNextEvent cfg).1 = .error .ioException ∧ (r.readNextLazy cfg).1 = .error .ioException := by
  have hv : isEventRecord (x.info pre.length) = true := by simp [isEventRecord, Rec.info, hn]
  have hname : (x.info pre.length).name = eventRecordName := hn
  constructor
  · obtain ⟨s', buf', b1, -⟩ := readRecords_at (fun (st : EventState) i => (st, isEventRecord i)) (eventProcessor cfg) pre (x :: rs) hx r.buf {}
    have a1 : scan (fun (st : EventState) i => (st, isEventRecord i)) (eventProcessor cfg) {} pre.length (x :: rs) = ({}, .error .ioException, some rs) := by
      have e : eventProcessor cfg {} (x.info pre.length) x.data = ({}, .error .ioException) := by
        unfold eventProcessor
        rw [hd]
        simp only [hname, recordNames.2.2.2.2.2, if_false, if_true]
      rw [scan_cons, hv]
      simp only [e]
    unfold Reader.readNextEvent Reader.readNextEventLoop
    rw [hr, b1, a1]
  · obtain ⟨s', buf', b1, -⟩ := readRecords_at (fun (st : LazyState) i => (st, isEventRecord i)) (lazyProcessor cfg) pre (x :: rs) hx r.buf {}
    have a1 : scan (fun (st : LazyState) i => (st, isEventRecord i)) (lazyProcessor cfg) {} pre.length (x :: rs) = ({}, .error .ioException, some rs) := by
      have e : lazyProcessor cfg {} (x.info pre.length) x.data = ({}, .error .ioException) := by
        unfold lazyProcessor
        simp only [hname, if_true]
      rw [scan_cons, hv]
      simp only [e]
    unfold Reader.readNextLazy Reader.readLazyLoop
    rw [hr, b1, a1]

/-! ## A concrete event -/

/-- A codec that does nothing. -/
def noCodec : Codec := { compress := fun l => .ok l, uncompress := fun l _ => .ok l }
/-- Settings of the reader. -/
def lazyCfg : RConfig := { codec := noCodec, std := ieee }
/-- Two particles, a hit, a subset. -/
def lazyCols : List (Str × Collection) :=
  [(str "All", { type := str "MCParticle", elems := [⟨10, some (.mcParticle { pdg := 11 })⟩, ⟨11, some (.mcParticle { pdg := 22, parents := [10] })⟩] }),
   (str "Hits", { type := str "LCIntVec", elems := [⟨20, some (.intVec [4, 5])⟩] }),
   (str "Some", { type := str "MCParticle", flag := 0x40000, elems := [⟨11, none⟩] })]
/-- Header of the event. -/
def lazyHeader : EventHeader := { run := 1, evt := 2, cols := colHeads lazyCols }
/-- The data of the event record. -/
def lazyData : List Byte := match writeEvent ieee [] ([], []) 0 lazyHeader lazyCols with
  | .ok d => d.2
  | .error _ => []
/-- Information on the event record. -/
def lazyInfo : RecordInfo := { name := eventRecordName, headerLength := 4 }

/-- The event as a reader with lazy unpacking hands it out. There is another collection in memory, at address 9, a subset with a null pointer. -/
def lazySample : LazyEvent :=
  LazyEvent.make lazyHeader (fun a => if a = 9 then { type := str "MCParticle", flag := 0x40000, elems := [⟨0, none⟩] } else { type := [] }) lazyInfo ([0, 0, 0, 0] ++ lazyData)

/-- A reader without lazy unpacking decodes the sample. -/
theorem lazySample_unpacks : ∃ cols, Unpacks lazyCfg lazyHeader lazyInfo ([0, 0, 0, 0] ++ lazyData) cols := by
  have h : (match decodeCollections lazyCfg lazyHeader lazyData with
      | .ok c => (match finishEvent lazyCfg (lazyHeader, c) with
        | .ok e => decide (e.1 = lazyHeader)
        | .error _ => false)
      | .error _ => false) = true := by decide +kernel
  split at h
  · rename_i c hc
    split at h
    · rename_i e he
      have he1 : e.1 = lazyHeader := by simpa using h
      have h1 : ∀ d : List Byte, lazyInfo.headerLength ≤ ([0, 0, 0, 0] ++ d).length := fun d => by
        show 4 ≤ _; rw [List.length_append]; exact Nat.le_add_right _ _
      have h2 : ∀ d : List Byte, plainData lazyCfg.codec lazyInfo (([0, 0, 0, 0] ++ d).drop lazyInfo.headerLength) = .ok d := fun d => rfl
      exact ⟨e.2, h1 _, lazyData, c, h2 _, hc, by rw [he, ← he1]⟩
    · cases h
  · cases h

/-- A careful sequence of calls. -/
def lazyCalls : List EventCall :=
  [.setAccessMode false, .remove (str "None"), .names, .get (str "All"), .remove (str "Some"), .add 9 (str "Mine"), .take (str "Hits"), .remove (str "All"), .get (str "All"), .get (str "Mine")]

example : Careful (lazyHeader.cols.map (·.1)) false lazyCalls ∧ ¬(isCompressed lazyInfo.options = true ∧ lazyInfo.uncompressedLength = 0) := by
  refine ⟨?_, by decide⟩
  refine Or.inl ⟨by decide, ?_⟩
  refine Or.inr (Or.inl ⟨rfl, by decide, rfl, ?_⟩)
  exact Or.inr (Or.inr ⟨rfl, by decide⟩)

/-- What the calls show. -/
example : (lazySample.calls lazyCfg lazyCalls).1.map (fun s => (s.1, s.2.map fun c => (c.flag, c.elems.map (·.addr)))) =
    [(.done, none), (.done, none), (.names [str "All", str "Hits", str "Some"], none), (.collection 1, some (0, [1, 2])), (.done, none), (.done, none),
     (.collection 2, some (0x10000, [3])), (.done, none), (.threw .notAvailable, none), (.collection 9, some (0x40000, [0]))] := by decide +kernel

/-- A collection that is added before another one is asked for is checked for null pointers, too: no collection can be obtained at first. Without lazy
unpacking it can. -/
theorem C45_fails_for_added : (lazySample.calls lazyCfg [.add 9 (str "Mine"), .get (str "Hits")]).1 = [(.done, none), (.threw .lcException, none)] ∧
    ∃ cols, Unpacks lazyCfg lazyHeader lazyInfo ([0, 0, 0, 0] ++ lazyData) cols ∧
      ((FullEvent.make (lazyHeader, cols) lazySample.mem).calls [.add 9 (str "Mine"), .get (str "Hits")]).1.map (·.1) = [.done, .collection 2] := by
  obtain ⟨cols, hc⟩ := lazySample_unpacks
  exact ⟨by decide +kernel, cols, hc, by rfl⟩

/-- Removing two collections, or removing one before another one is asked for. -/
example : (lazySample.calls lazyCfg [.get (str "Hits"), .remove (str "All"), .remove (str "Hits")]).1.map (·.1) = [.collection 2, .done, .threw .ub] ∧
    (lazySample.calls lazyCfg [.setAccessMode true, .remove (str "All"), .get (str "Hits")]).1.map (·.1) = [.done, .threw .readOnly, .threw .ub] := by decide +kernel

/-- A file with an event record only. -/
example : let x : Rec := ⟨eventRecordName, 0, 0, []⟩
    let r : Reader := { files := [], stream := ready ([] ++ fileOf [x]) 0 }
    (r.readNextEvent lazyCfg).1 = .error .ioException ∧ (r.readNextLazy lazyCfg).1 = .error .ioException := by
  intro x r
  refine C45_orphan lazyCfg r [] x [] (fun y hy => ?_) rfl rfl [] (by simp [plainData, x, Rec.info, isCompressed])
  rw [List.mem_singleton.1 hy]
  exact ⟨by decide, by decide +kernel, by decide, fun _ => rfl⟩

end Props
