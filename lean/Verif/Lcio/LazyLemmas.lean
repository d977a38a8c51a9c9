import Verif.Spec.Lazy
import Verif.Lcio.MemoryLemmas
namespace Lcio
open Sio Spec

theorem mapM_some {α : Type} (l : List α) : (l.map some).mapM id = some l := by
  induction l with
  | nil => rfl
  | cons a l ih => simp [List.mapM_cons, ih]

theorem removeIf_none {α : Type} (p : α → Bool) (l : List α) (h : ∀ a ∈ l, p a = false) : removeIf p (l.map some) = .ok (l.map some) := by
  unfold removeIf
  rw [mapM_some]
  have h1 : l.takeWhile (fun x => !p x) = l := by
    have := List.takeWhile_append_of_pos (p := fun x => !p x) (l₁ := l) (l₂ := []) (fun a ha => by simp [h a ha])
    simpa using this
  have h2 : l.dropWhile (fun x => !p x) = [] := by
    have := List.dropWhile_append_of_pos (p := fun x => !p x) (l₁ := l) (l₂ := []) (fun a ha => by simp [h a ha])
    simpa using this
  simp [h1, h2]

/-- The block to be removed is followed by another one: there is a null pointer at the end, and the block is gone. -/
theorem removeIf_mid {α : Type} (p : α → Bool) (l₁ l₂ : List α) (a b : α) (h₁ : ∀ x ∈ l₁, p x = false) (ha : p a = true) (h₂ : ∀ x ∈ l₂, p x = false) (hb : p b = false) :
    removeIf p ((l₁ ++ a :: (l₂ ++ [b])).map some) = .ok ((l₁ ++ (l₂ ++ [b])).map some ++ [none]) := by
  unfold removeIf
  rw [mapM_some]
  have e1 : ∀ l, (l₁ ++ a :: l).takeWhile (fun x => !p x) = l₁ := fun l => by
    rw [List.takeWhile_append_of_pos (fun x hx => by simp [h₁ x hx])]
    simp [ha]
  have e2 : ∀ l, (l₁ ++ a :: l).dropWhile (fun x => !p x) = a :: l := fun l => by
    rw [List.dropWhile_append_of_pos (fun x hx => by simp [h₁ x hx])]
    simp [ha]
  have e3 : (a :: (l₂ ++ [b])).filter (fun x => !p x) = l₂ ++ [b] := by
    rw [List.filter_cons_of_neg (by simp [ha])]
    exact List.filter_eq_self.2 fun x hx => by
      rcases List.mem_append.1 hx with hx | hx
      · simp [h₂ x hx]
      · rw [List.mem_singleton.1 hx]; simp [hb]
  simp only [e1, e2, e3]
  congr 2
  rw [List.length_append, List.length_singleton]
  show ((a :: (l₂ ++ [b])).drop (l₂.length + 1)).map _ = _
  simp [hb]

theorem findBlock_some {α : Type} (name : Str) (l : List (RBlock α)) : findBlock name (l.map some) = .ok (l.find? fun b => b.name == name) := by
  induction l with
  | nil => rfl
  | cons b l ih =>
    simp only [List.map_cons, findBlock, List.find?_cons]
    split
    · rename_i h; simp [h]
    · rename_i h; simp [h, ih]

theorem readSharedLoop_some {α : Type} (rec : List Byte) (l : List (RBlock α)) : ∀ fuel pos dev, readSharedLoop rec (l.map some) fuel pos dev = readBlocksLoop rec l fuel pos dev := by
  intro fuel
  induction fuel with
  | zero => intro pos dev; unfold readSharedLoop readBlocksLoop; rfl
  | succ n ih =>
    intro pos dev
    unfold readSharedLoop readBlocksLoop
    split
    · rfl
    · show Except.bind _ _ = Except.bind _ _
      congr 1
      funext p
      obtain ⟨info, span⟩ := p
      simp only [findBlock_some]
      show (match l.find? _ with | none => _ | some b => _) = _
      cases l.find? (fun b => b.name == info.name) with
      | none => exact ih _ _
      | some b => simp only [ih]

theorem readShared_some {α : Type} (rec : List Byte) (l : List (RBlock α)) (next : Nat) : readShared rec (l.map some) next = readBlocks rec l next := by
  unfold readShared readBlocks
  rw [readSharedLoop_some]

theorem readRecordData_length (s s' : IStream) (info : RecordInfo) (b buf : List Byte) (shift : Nat) (h : readRecordData s info b shift = (.ok (), s', buf)) :
    buf.length = shift + info.dataLength := by
  unfold readRecordData at h
  dsimp only at h
  repeat' split at h
  all_goals first | (cases h; done) | skip
  cases h
  simp only [resize, zeros, List.length_append, List.length_take, List.length_replicate]
  omega

/-! ## Restoring relations keeps the list of collections -/

theorem pushDaughters_length (c : Nat) (ps : List Nat) : ∀ cols cols', pushDaughters c ps cols = .ok cols' → cols'.length = cols.length := by
  induction ps with
  | nil => intro cols cols' h; cases h; rfl
  | cons p ps ih =>
    intro cols cols' h
    unfold pushDaughters at h
    split at h
    · cases h
    · rw [ih _ _ h]; simp [updParticle]

theorem pushParents_length (c : Nat) (ps : List Nat) : ∀ cols cols', pushParents c ps cols = .ok cols' → cols'.length = cols.length := by
  induction ps with
  | nil => intro cols cols' h; cases h; rfl
  | cons p ps ih =>
    intro cols cols' h
    unfold pushParents at h
    split at h
    · cases h
    · rw [ih _ _ h]; simp [updParticle]

theorem restoreLoop_length (d p : Nat) (as : List Nat) : ∀ cols cols', restoreLoop d p as cols = .ok cols' → cols'.length = cols.length := by
  induction as with
  | nil => intro cols cols' h; cases h; rfl
  | cons a as ih =>
    intro cols cols' h
    unfold restoreLoop at h
    split at h
    · cases h
    · split at h
      · split at h
        · cases h
        · rename_i h1; rw [ih _ _ h, pushParents_length _ _ _ _ h1]
      · split at h
        · split at h
          · cases h
          · rename_i h1; rw [ih _ _ h, pushDaughters_length _ _ _ _ h1]
        · exact ih _ _ h

theorem restoreFrom_length (n : Nat) : ∀ i cols cols', restoreFrom i n cols = .ok cols' → cols'.length = cols.length := by
  induction n with
  | zero => intro i cols cols' h; cases h; rfl
  | succ n ih =>
    intro i cols cols' h
    unfold restoreFrom at h
    split at h
    · cases h
    · rename_i c1 h1
      rw [ih _ _ _ h]
      unfold restoreCol at h1
      split at h1
      · cases h1; rfl
      · split at h1
        · split at h1
          · cases h1
          · exact restoreLoop_length _ _ _ _ _ h1
        · cases h1; rfl

/-! ## Unpacking -/

theorem newMap_get (heads : List (Str × ColHead)) (i : Nat) : (newMap heads)[i]? = heads[i]?.map fun h => (h.1, i + 1) := by
  simp only [newMap, List.getElem?_map, List.getElem?_zipIdx, Nat.zero_add]
  cases heads[i]? <;> rfl

theorem newMap_length (heads : List (Str × ColHead)) : (newMap heads).length = heads.length := by simp [newMap]

theorem newMem_zero (heads : List (Str × ColHead)) (others : Nat → Collection) : newMem heads others 0 = others 0 := rfl

theorem newMem_succ (heads : List (Str × ColHead)) (others : Nat → Collection) (i : Nat) : newMem heads others (i + 1) =
    match heads[i]? with
    | some h => { type := h.2.type }
    | none => others (i + 1) := rfl

theorem find_at {α : Type} (p : α → Bool) (l : List α) (i : Nat) (x : α) (h : l[i]? = some x) (hp : p x = true)
    (hu : ∀ (j : Nat) y, l[j]? = some y → p y = true → j = i) : l.find? p = some x := by
  induction l generalizing i with
  | nil => simp at h
  | cons a l ih =>
    rw [List.find?_cons]
    cases ha : p a with
    | true =>
      have : (0 : Nat) = i := hu 0 a rfl ha
      subst this
      cases h; rfl
    | false =>
      cases i with
      | zero => cases h; rw [hp] at ha; cases ha
      | succ i => exact ih i h fun j y hj hy => by have := hu (j + 1) y hj hy; omega

theorem find_none {α : Type} (p : α → Bool) (l : List α) (hu : ∀ (j : Nat) y, l[j]? = some y → p y = false) : l.find? p = none := by
  rw [List.find?_eq_none]
  intro x hx
  obtain ⟨j, hj, rfl⟩ := List.mem_iff_getElem.1 hx
  simp [hu j _ (List.getElem?_eq_getElem hj)]

theorem zip_addr (heads : List (Str × ColHead)) (cols : List (Str × Collection)) (j : Nat) (y : (Str × Nat) × (Str × Collection))
    (h : ((newMap heads).zip cols)[j]? = some y) : y.1.2 = j + 1 ∧ cols[j]? = some y.2 := by
  obtain ⟨h1, h2⟩ := List.getElem?_zip_eq_some.1 h
  refine ⟨?_, h2⟩
  rw [newMap_get] at h1
  cases hh : heads[j]? with
  | none => rw [hh] at h1; cases h1
  | some x => rw [hh, Option.map_some] at h1; rw [← Option.some.inj h1]

theorem store_zero (heads : List (Str × ColHead)) (cols : List (Str × Collection)) (mem : Nat → Collection) : store (newMap heads) cols mem 0 = mem 0 := by
  unfold store
  rw [find_none]
  intro j y hy
  rw [(zip_addr heads cols j y hy).1]
  rfl

theorem store_succ (heads : List (Str × ColHead)) (cols : List (Str × Collection)) (mem : Nat → Collection) (hl : cols.length = heads.length) (i : Nat) :
    store (newMap heads) cols mem (i + 1) = match cols[i]? with
      | some c => c.2
      | none => mem (i + 1) := by
  unfold store
  cases hc : cols[i]? with
  | none =>
    rw [find_none]
    intro j y hy
    obtain ⟨h1, h2⟩ := zip_addr heads cols j y hy
    rw [h1]
    rw [beq_eq_false_iff_ne]
    intro h
    rw [show j = i by omega, hc] at h2
    cases h2
  | some c =>
    have hi : i < heads.length := by
      rw [← hl]
      exact (List.getElem?_eq_some_iff.1 hc).1
    have hz : ((newMap heads).zip cols)[i]? = some ((heads[i].1, i + 1), c) :=
      List.getElem?_zip_eq_some.2 ⟨by rw [newMap_get, List.getElem?_eq_getElem hi]; rfl, hc⟩
    rw [find_at _ _ i _ hz (by simp)]
    intro j y hy hp
    rw [(zip_addr heads cols j y hy).1, beq_iff_eq] at hp
    omega

theorem fillBlocks_succ (heads : List (Str × ColHead)) (results : List (Str × Collection)) (mem : Nat → Collection) (i : Nat) :
    fillBlocks ((newMap heads).map some) results mem (i + 1) = match heads[i]? with
      | none => mem (i + 1)
      | some h => match results.find? fun r => r.1 == h.1 with
        | some r => r.2
        | none => mem (i + 1) := by
  have e : ∀ a : Nat, (((newMap heads).map some).findSome? fun b => b.bind fun b => if b.2 == a then some b.1 else none) =
      ((newMap heads).find? fun b => b.2 == a).map (·.1) := by
    intro a
    generalize newMap heads = m
    induction m with
    | nil => rfl
    | cons b m ih =>
      simp only [List.map_cons, List.findSome?_cons, List.find?_cons, Option.bind_some]
      cases hb : (b.2 == a) with
      | true => simp
      | false => simpa using ih
  unfold fillBlocks
  rw [e]
  cases hh : heads[i]? with
  | none =>
    rw [find_none]
    · rfl
    · intro j y hy
      rw [newMap_get] at hy
      cases hj : heads[j]? with
      | none => rw [hj] at hy; cases hy
      | some x =>
        rw [hj, Option.map_some] at hy
        rw [← Option.some.inj hy]
        rw [beq_eq_false_iff_ne]
        intro h
        rw [show j = i by simpa using h, hh] at hj
        cases hj
  | some h =>
    rw [find_at _ _ i (h.1, i + 1) (by rw [newMap_get, hh]; rfl) (by simp)]
    · rfl
    · intro j y hy hp
      rw [newMap_get] at hy
      cases hj : heads[j]? with
      | none => rw [hj] at hy; cases hy
      | some x =>
        rw [hj, Option.map_some] at hy
        rw [← Option.some.inj hy] at hp
        simpa using hp

theorem fillBlocks_zero (heads : List (Str × ColHead)) (results : List (Str × Collection)) (mem : Nat → Collection) :
    fillBlocks ((newMap heads).map some) results mem 0 = mem 0 := by
  unfold fillBlocks
  have : (((newMap heads).map some).findSome? fun b => b.bind fun b => if b.2 == 0 then some b.1 else none) = none := by
    rw [List.findSome?_eq_none_iff]
    intro b hb
    obtain ⟨b, hb', rfl⟩ := List.mem_map.1 hb
    obtain ⟨j, hj, rfl⟩ := List.mem_iff_getElem.1 hb'
    have := newMap_get heads j
    rw [List.getElem?_eq_getElem hj, List.getElem?_eq_getElem (by rwa [newMap_length] at hj)] at this
    rw [Option.some.inj this]
    rfl
  rw [this]

/-- The collections after reading the blocks are those the reader gets. -/
theorem fill_cols (heads : List (Str × ColHead)) (results : List (Str × Collection)) (others : Nat → Collection) :
    ((newMap heads).map fun c => (c.1, fillBlocks ((newMap heads).map some) results (newMem heads others) c.2)) = filledCols heads results := by
  apply List.ext_getElem?
  intro i
  simp only [List.getElem?_map, newMap_get, filledCols]
  cases hh : heads[i]? with
  | none => rfl
  | some h =>
    simp only [Option.map_some, fillBlocks_succ, hh, newMem_succ]
    rfl

theorem blocks_decoders (std : Std Pid) (heads : List (Str × ColHead)) (others : Nat → Collection) :
    ((newMap heads).map some).map (Option.map fun b => (⟨b.1, Collection.read std (newMem heads others b.2).type⟩ : RBlock Collection)) =
      (eventDecoders std heads).map some := by
  apply List.ext_getElem?
  intro i
  simp only [List.getElem?_map, newMap_get, eventDecoders]
  cases hh : heads[i]? with
  | none => rfl
  | some h => simp only [Option.map_some, newMem_succ, hh]

/-- Memory after unpacking: as if the reader had unpacked the event. -/
theorem fill_store (heads : List (Str × ColHead)) (results cols : List (Str × Collection)) (others : Nat → Collection) (hl : cols.length = heads.length) :
    store (newMap heads) cols (fillBlocks ((newMap heads).map some) results (newMem heads others)) = store (newMap heads) cols (newMem heads others) := by
  funext a
  cases a with
  | zero => rw [store_zero, store_zero, fillBlocks_zero]
  | succ i =>
    rw [store_succ _ _ _ hl, store_succ _ _ _ hl]
    cases hc : cols[i]? with
    | some c => rfl
    | none =>
      have : heads[i]? = none := by
        rw [List.getElem?_eq_none_iff] at hc ⊢
        omega
      simp only [fillBlocks_succ, this]

/-- Unpacking an event that would have been unpacked by the reader without error. -/
theorem unpack_make (cfg : RConfig) (h : EventHeader) (others : Nat → Collection) (info : RecordInfo) (buf data : List Byte) (cols cols' : List (Str × Collection))
    (h0 : ¬(isCompressed info.options = true ∧ info.uncompressedLength = 0)) (hl : info.headerLength ≤ buf.length)
    (hd : plainData cfg.codec info (buf.drop info.headerLength) = .ok data) (hc : decodeCollections cfg h data = .ok cols)
    (hp : postProcess cfg.ignoreNull cols = .ok cols') (obj : EventObj) (ho : obj.colMap = newMap h.cols) :
    ∃ e', ({ LazyEvent.make h others info buf with obj := obj } : LazyEvent).unpack cfg = (.ok (), e') ∧
      e'.toFullEvent = { FullEvent.make (h, cols') others with obj := obj } ∧ e'.unpacked = true ∧ e'.blocks = (newMap h.cols).map some := by
  have h0' : (isCompressed info.options && info.uncompressedLength == 0) = false := by
    rw [Bool.eq_false_iff]; intro h'; rw [Bool.and_eq_true, beq_iff_eq] at h'; exact h0 h'
  unfold decodeCollections at hc
  cases hr : readBlocks data (eventDecoders cfg.std h.cols) with
  | error x => rw [hr] at hc; cases hc
  | ok r =>
    obtain ⟨results, ρ, dev⟩ := r
    rw [hr] at hc
    simp only [Except.ok.injEq] at hc
    have hs : readShared data ((LazyEvent.make h others info buf).blocks.map
        (Option.map fun b => (⟨b.1, Collection.read cfg.std (newMem h.cols others b.2).type⟩ : RBlock Collection))) = .ok (results, ρ, dev) := by
      refine Eq.trans ?_ hr
      rw [← readShared_some]
      exact congrArg (readShared data · 1) (blocks_decoders cfg.std h.cols others)
    have hm : ({ obj := obj, mem := fillBlocks (LazyEvent.make h others info buf).blocks (results.map fun c => (c.1, c.2.mapPtr ρ)) (newMem h.cols others) } : FullEvent).cols = cols := by
      rw [← hc, ← fill_cols h.cols _ others]
      unfold FullEvent.cols
      rw [ho]
      rfl
    unfold postProcess at hp
    cases hrest : restoreRelations cols with
    | error x => rw [hrest] at hp; cases hp
    | ok cols1 =>
      rw [hrest] at hp
      simp only at hp
      split at hp
      · cases hp
      · rename_i hnull
        cases hp
        have hlen : cols'.length = h.cols.length := by
          rw [restoreFrom_length _ _ _ _ hrest, ← hc]; simp [filledCols]
        refine ⟨{ LazyEvent.make h others info buf with obj := obj, mem := store obj.colMap cols' (fillBlocks (LazyEvent.make h others info buf).blocks
            (results.map fun c => (c.1, c.2.mapPtr ρ)) (newMem h.cols others)), record := some (info, []), unpacked := true }, ?_, ?_, rfl, rfl⟩
        · unfold LazyEvent.unpack
          simp only [LazyEvent.make] at hs hm ⊢
          simp only [Bool.false_eq_true, if_false, h0', Nat.not_lt.mpr hl, hd, hs, hm, hrest, if_neg hnull]
        · simp only [ho, FullEvent.make, LazyEvent.make]
          rw [fill_store _ _ _ _ hlen]

theorem removeIf_last {α : Type} (p : α → Bool) (l : List α) (a : α) (h : ∀ x ∈ l, p x = false) : removeIf p ((l ++ [a]).map some) = .ok ((l ++ [a]).map some) := by
  cases ha : p a with
  | false =>
    exact removeIf_none p _ fun x hx => by
      rcases List.mem_append.1 hx with hx | hx
      · exact h x hx
      · rw [List.mem_singleton.1 hx]; exact ha
  | true =>
    unfold removeIf
    rw [mapM_some]
    have e1 : (l ++ [a]).takeWhile (fun x => !p x) = l := by
      rw [List.takeWhile_append_of_pos (fun x hx => by simp [h x hx])]
      simp [ha]
    have e2 : (l ++ [a]).dropWhile (fun x => !p x) = [a] := by
      rw [List.dropWhile_append_of_pos (fun x hx => by simp [h x hx])]
      simp [ha]
    simp [e1, e2, ha]

/-! ## Calls -/

theorem unpack_done (cfg : RConfig) (e : LazyEvent) (h : e.unpacked = true) : e.unpack cfg = (.ok (), e) := by
  unfold LazyEvent.unpack
  rw [if_pos h]

/-- An unpacked event: every call but a removal is that of the base class. -/
theorem call_done (cfg : RConfig) (e : LazyEvent) (h : e.unpacked = true) (c : EventCall) (hc : isRemove c = false) :
    e.call cfg c = ((e.toFullEvent.call c).1, { e with toFullEvent := (e.toFullEvent.call c).2 }) := by
  cases c with
  | remove n => cases hc
  | get n => simp only [LazyEvent.call, unpack_done cfg e h]
  | take n => simp only [LazyEvent.call, unpack_done cfg e h]
  | add a n => rfl
  | names => rfl
  | setAccessMode ro => rfl

theorem calls_done (cfg : RConfig) (cs : List EventCall) (hc : ∀ c ∈ cs, isRemove c = false) : ∀ e : LazyEvent, e.unpacked = true →
    (e.calls cfg cs).1 = (e.toFullEvent.calls cs).1 := by
  induction cs with
  | nil => intro e h; rfl
  | cons c cs ih =>
    intro e h
    simp only [LazyEvent.calls, FullEvent.calls, call_done cfg e h c (hc c List.mem_cons_self)]
    exact congrArg _ (ih (fun d hd => hc d (List.mem_cons_of_mem _ hd)) { e with toFullEvent := (e.toFullEvent.call c).2 } h)

/-- A removal that leaves the blocks in order. -/
theorem call_remove (cfg : RConfig) (e : LazyEvent) (n : Str) (bs : List (Option (Str × Nat))) (h : removeIf (fun b => b.1 == n) e.blocks = .ok bs) :
    e.call cfg (.remove n) = ((e.toFullEvent.call (.remove n)).1, { e with toFullEvent := (e.toFullEvent.call (.remove n)).2, blocks := bs }) := by
  simp only [LazyEvent.call, h]

theorem removeIf_ok {α : Type} (p : α → Bool) (l : List α) : ∃ bs, removeIf p (l.map some) = .ok bs := by
  unfold removeIf
  rw [mapM_some]
  exact ⟨_, rfl⟩

theorem newMap_names (heads : List (Str × ColHead)) : (newMap heads).map (·.1) = heads.map (·.1) := by
  apply List.ext_getElem?
  intro i
  simp only [List.getElem?_map, newMap_get]
  cases heads[i]? <;> rfl

/-- Removing a name that is not stored, or the last one, does not change the blocks. -/
theorem removeIf_names (m : List (Str × Nat)) (n : Str) (h : n ∉ (m.map (·.1)).dropLast) :
    removeIf (fun b : Str × Nat => b.1 == n) (m.map some) = .ok (m.map some) := by
  rcases List.eq_nil_or_concat m with rfl | ⟨l, b, rfl⟩
  · rfl
  · rw [List.concat_eq_append] at *
    apply removeIf_last
    intro x hx
    rw [beq_eq_false_iff_ne]
    rintro rfl
    apply h
    rw [List.map_append, List.map_singleton, List.dropLast_concat]
    exact List.mem_map_of_mem hx

theorem calls_asked (cfg : RConfig) (m : List (Str × Nat)) (cs : List EventCall) : ∀ e : LazyEvent, e.unpacked = true → e.blocks = m.map some →
    Careful (m.map (·.1)) true cs → (e.calls cfg cs).1 = (e.toFullEvent.calls cs).1 := by
  induction cs with
  | nil => intro e _ _ _; rfl
  | cons c cs ih =>
    intro e h hb hc
    by_cases hr : isRemove c = true
    · cases c with
      | remove n =>
        by_cases hn : n ∉ (m.map (·.1)).dropLast ∧ Careful (m.map (·.1)) true cs
        · have hrem := removeIf_names m n hn.1
          simp only [LazyEvent.calls, FullEvent.calls, call_remove cfg e n (m.map some) (by rw [hb]; exact hrem)]
          exact congrArg _ (ih { e with toFullEvent := (e.toFullEvent.call (.remove n)).2, blocks := m.map some } h rfl hn.2)
        · have hlast : ∀ c ∈ cs, isRemove c = false := by
            rcases hc with hc | hc | hc
            · exact absurd ⟨fun h' => hc.1 (List.dropLast_subset _ h'), hc.2⟩ hn
            · exact absurd hc.2 hn
            · exact hc.2
          obtain ⟨bs, hbs⟩ := removeIf_ok (fun b : Str × Nat => b.1 == n) m
          simp only [LazyEvent.calls, FullEvent.calls, call_remove cfg e n bs (by rw [hb]; exact hbs)]
          exact congrArg _ (calls_done cfg cs hlast { e with toFullEvent := (e.toFullEvent.call (.remove n)).2, blocks := bs } h)
      | _ => cases hr
    · have hr' : isRemove c = false := by simpa using hr
      have hc' : Careful (m.map (·.1)) true cs := by
        cases c with
        | remove n => cases hr'
        | get n => exact hc
        | take n => exact hc
        | add a n => exact hc.2
        | names => exact hc
        | setAccessMode ro => exact hc
      simp only [LazyEvent.calls, FullEvent.calls, call_done cfg e h c hr']
      exact congrArg _ (ih { e with toFullEvent := (e.toFullEvent.call c).2 } h hb hc')

theorem erase_none (m : List (Str × Nat)) (n : Str) (h : n ∉ m.map (·.1)) : omErase strLt n m = m := by
  unfold omErase
  rw [List.filter_eq_self]
  intro x hx
  rw [Bool.not_eq_true', Bool.eq_false_iff]
  intro h'
  exact h (((eqv_str _ _).1 h') ▸ List.mem_map_of_mem hx)

/-- From the event as the reader hands it out, if the reader could have unpacked it. -/
theorem calls_make (cfg : RConfig) (h : EventHeader) (others : Nat → Collection) (info : RecordInfo) (buf data : List Byte) (cols cols' : List (Str × Collection))
    (h0 : ¬(isCompressed info.options = true ∧ info.uncompressedLength = 0)) (hl : info.headerLength ≤ buf.length)
    (hd : plainData cfg.codec info (buf.drop info.headerLength) = .ok data) (hc : decodeCollections cfg h data = .ok cols)
    (hp : postProcess cfg.ignoreNull cols = .ok cols') (cs : List EventCall) : ∀ (obj : EventObj), obj.colMap = newMap h.cols → Careful (h.cols.map (·.1)) false cs →
    (({ LazyEvent.make h others info buf with obj := obj } : LazyEvent).calls cfg cs).1 = (({ FullEvent.make (h, cols') others with obj := obj } : FullEvent).calls cs).1 := by
  induction cs with
  | nil => intro obj _ _; rfl
  | cons c cs ih =>
    intro obj ho hcs
    have hfirst : ∀ c, (∀ e : LazyEvent, e.call cfg c = match e.unpack cfg with
        | (.error x, e) => ((.threw x, none), e)
        | (.ok (), e) => let r := e.toFullEvent.call c; (r.1, { e with toFullEvent := r.2 })) → Careful (h.cols.map (·.1)) true cs →
        (({ LazyEvent.make h others info buf with obj := obj } : LazyEvent).calls cfg (c :: cs)).1 =
          (({ FullEvent.make (h, cols') others with obj := obj } : FullEvent).calls (c :: cs)).1 := by
      intro c hcall hcs
      obtain ⟨e', hu, hf, hd, hb⟩ := unpack_make cfg h others info buf data cols cols' h0 hl hd hc hp obj ho
      simp only [LazyEvent.calls, FullEvent.calls, hcall, hu, ← hf]
      refine congrArg _ (calls_asked cfg (newMap h.cols) cs { e' with toFullEvent := (e'.toFullEvent.call c).2 } hd hb ?_)
      rw [newMap_names]; exact hcs
    cases c with
    | get n => exact hfirst _ (fun e => rfl) hcs
    | take n => exact hfirst _ (fun e => rfl) hcs
    | add a n => exact absurd hcs.1 (by decide)
    | names =>
      have := ih obj ho hcs
      simp only [LazyEvent.calls, FullEvent.calls]
      exact congrArg _ this
    | setAccessMode ro =>
      have := ih { obj with readOnly := ro } ho hcs
      simp only [LazyEvent.calls, FullEvent.calls]
      exact congrArg _ this
    | remove n =>
      have hn : n ∉ h.cols.map (·.1) ∧ Careful (h.cols.map (·.1)) false cs := by
        rcases hcs with hcs | hcs | hcs
        · exact hcs
        · exact absurd hcs.1 (by decide)
        · exact absurd hcs.1 (by decide)
      have hrem : removeIf (fun b : Str × Nat => b.1 == n) ((newMap h.cols).map some) = .ok ((newMap h.cols).map some) :=
        removeIf_names _ n fun h' => hn.1 (newMap_names h.cols ▸ List.dropLast_subset _ h')
      have hfull : ∀ mem, ({ obj := obj, mem := mem } : FullEvent).call (.remove n) =
          ((if obj.readOnly then .threw .readOnly else .done, none), { obj := obj, mem := mem }) := by
        intro mem
        have : omErase strLt n obj.colMap = obj.colMap := by
          rw [ho]; exact erase_none _ n (by rw [newMap_names]; exact hn.1)
        obtain ⟨m, no, tr, ro⟩ := obj
        simp only at this
        cases ro <;> simp [FullEvent.call, EventObj.call, EventObj.removeCollection, this]
      have := ih obj ho hn.2
      simp only [LazyEvent.calls, FullEvent.calls, call_remove cfg ({ LazyEvent.make h others info buf with obj := obj } : LazyEvent) n _ hrem, hfull]
      exact congrArg _ this

/-! ## Reading with another processor -/

theorem readRecords_sim {σ τ : Type} (valid : RecordInfo → Bool) (f : σ → RecordInfo → List Byte → σ × Except Err Bool) (g : τ → RecordInfo → List Byte → τ × Except Err Bool)
    (R : σ → τ → Prop) (hf : ∀ s t i d b, R s t → (f s i d).2 = .ok b → (g t i d).2 = .ok b ∧ R (f s i d).1 (g t i d).1) :
    ∀ fuel s t st buf s' st' buf', R s t → readRecords (fun s i => (s, valid i)) f fuel s st buf = (s', .ok (), st', buf') →
      ∃ t', readRecords (fun t i => (t, valid i)) g fuel t st buf = (t', .ok (), st', buf') ∧ R s' t' := by
  intro fuel
  induction fuel with
  | zero => intro s t st buf s' st' buf' _ h; simp [readRecords] at h
  | succ n ih =>
    intro s t st buf s' st' buf' hR h
    unfold readRecords at h ⊢
    cases h1 : readRecordInfo st buf with
    | mk r p =>
      obtain ⟨st1, buf1⟩ := p
      cases r with
      | error e => rw [h1] at h; simp at h
      | ok info =>
        simp only [h1] at h ⊢
        cases hv : valid info with
        | false => simp only [hv] at h ⊢; exact ih _ _ _ _ _ _ _ hR h
        | true =>
          simp only [hv] at h ⊢
          cases h2 : readRecordData st1 info buf1 info.headerLength with
          | mk r p =>
            obtain ⟨st2, buf2⟩ := p
            cases r with
            | error e => rw [h2] at h; simp at h
            | ok u =>
              simp only [h2] at h ⊢
              cases h3 : spanOf buf2 info.headerLength info.dataLength with
              | error e => rw [h3] at h; simp at h
              | ok span =>
                simp only [h3] at h ⊢
                cases h4 : f s info span with
                | mk s1 r =>
                  cases r with
                  | error e => rw [h4] at h; simp at h
                  | ok b =>
                    obtain ⟨k1, k2⟩ := hf s t info span b hR (by rw [h4])
                    rw [h4] at k2
                    cases h5 : g t info span with
                    | mk t1 r =>
                      rw [h5] at k1 k2
                      simp only at k1 k2
                      subst k1
                      simp only [h4] at h
                      cases b with
                      | true => simp only at h ⊢; exact ih _ _ _ _ _ _ _ k2 h
                      | false =>
                        simp only [Prod.mk.injEq] at h ⊢
                        obtain ⟨rfl, -, rfl, rfl⟩ := h
                        exact ⟨_, ⟨rfl, trivial, rfl, rfl⟩, k2⟩

/-- What the two processors have in common. -/
def SameState (cfg : RConfig) (s : EventState) (t : LazyState) : Prop := s.hdr = t.hdr ∧
  match s.evt, t.evt with
  | none, none => True
  | some e, some (h, info, buf) => e.1 = h ∧ ∃ data d, buf = List.replicate info.headerLength 0 ++ data ∧ plainData cfg.codec info data = .ok d ∧
      decodeCollections cfg h d = .ok e.2
  | _, _ => False

theorem sameState_step (cfg : RConfig) (s : EventState) (t : LazyState) (i : RecordInfo) (d : List Byte) (b : Bool) (h : SameState cfg s t)
    (hb : (eventProcessor cfg s i d).2 = .ok b) : (lazyProcessor cfg t i d).2 = .ok b ∧ SameState cfg (eventProcessor cfg s i d).1 (lazyProcessor cfg t i d).1 := by
  have hne : headerRecordName ≠ eventRecordName := by decide
  unfold eventProcessor lazyProcessor at *
  cases hp : plainData cfg.codec i d with
  | error e => rw [hp] at hb; cases hb
  | ok data =>
    simp only [hp] at hb ⊢
    by_cases h1 : i.name = headerRecordName
    · have h2 : i.name ≠ eventRecordName := by rw [h1]; exact hne
      simp only [h1, if_true, hne, if_false] at hb ⊢
      cases hd : decodeHeader cfg data with
      | error e => rw [hd] at hb; cases hb
      | ok hdr => simp only [hd] at hb ⊢; exact ⟨hb, rfl, trivial⟩
    · by_cases h2 : i.name = eventRecordName
      · simp only [h2, if_true, if_neg (Ne.symm hne)] at hb ⊢
        rw [← h.1]
        cases hh : s.hdr with
        | none => rw [hh] at hb; cases hb
        | some hdr =>
          simp only [hh] at hb ⊢
          cases hd : decodeCollections cfg hdr data with
          | error e => rw [hd] at hb; cases hb
          | ok cols =>
            simp only [hd] at hb ⊢
            exact ⟨hb, rfl, rfl, d, data, rfl, hp, hd⟩
      · simp only [h1, h2, if_false] at hb ⊢
        exact ⟨hb, h⟩

/-! ## Null pointers among the blocks -/

theorem findBlock_null {α : Type} (name : Str) (l : List (RBlock α)) (h : ∀ b ∈ l, (b.name == name) = false) : findBlock name (l.map some ++ [none]) = .error .ub := by
  induction l with
  | nil => rfl
  | cons b l ih =>
    simp only [List.map_cons, List.cons_append, findBlock, h b List.mem_cons_self, Bool.false_eq_true, if_false]
    exact ih fun c hc => h c (List.mem_cons_of_mem _ hc)

theorem findBlock_found {α : Type} (name : Str) (l : List (RBlock α)) (b : RBlock α) (h : l.find? (fun b => b.name == name) = some b) :
    findBlock name (l.map some ++ [none]) = .ok (some b) := by
  induction l with
  | nil => cases h
  | cons c l ih =>
    simp only [List.map_cons, List.cons_append, findBlock]
    rw [List.find?_cons] at h
    cases hc : c.name == name with
    | true => rw [hc] at h; cases h; rfl
    | false => rw [hc] at h; exact ih h

/-- If a block was read for which there is no reader any more, but a null pointer, then reading is undefined behaviour. -/
theorem readSharedLoop_null {α : Type} (rec : List Byte) (l l' : List (RBlock α)) (n : Str) (hl : ∀ b ∈ l', (b.name == n) = false)
    (hf : ∀ m, m ≠ n → l'.find? (fun b => b.name == m) = l.find? (fun b => b.name == m)) :
    ∀ fuel pos dev res dev', readBlocksLoop rec l fuel pos dev = .ok (res, dev') → n ∈ res.map (·.1) → readSharedLoop rec (l'.map some ++ [none]) fuel pos dev = .error .ub := by
  intro fuel
  induction fuel with
  | zero =>
    intro pos dev res dev' h hn
    unfold readBlocksLoop at h
    split at h
    · cases h; simp at hn
    · cases h
  | succ k ih =>
    intro pos dev res dev' h hn
    unfold readBlocksLoop at h
    unfold readSharedLoop
    split at h
    · cases h; simp at hn
    · rename_i hpos
      rw [if_neg hpos]
      cases h1 : extractBlock rec pos with
      | error e => rw [h1] at h; cases h
      | ok p =>
        obtain ⟨info, span⟩ := p
        rw [h1] at h
        show (findBlock info.name (l'.map some ++ [none]) >>= _) = _
        by_cases hi : info.name = n
        · rw [hi, findBlock_null n l' hl]; rfl
        · cases hfind : l.find? (fun b => b.name == info.name) with
          | none =>
            simp only [bind, Except.bind, hfind] at h
            rw [findBlock_null info.name l' fun b hb => by
              have := List.find?_eq_none.1 ((hf _ hi).trans hfind) b hb
              simpa using this]
            rfl
          | some b =>
            simp only [bind, Except.bind, hfind] at h
            rw [findBlock_found _ _ _ ((hf _ hi).trans hfind)]
            simp only [bind, Except.bind]
            cases h2 : RDev.seek { dev with buf := span } info.headerLength with
            | error e => rw [h2] at h; cases h
            | ok dev1 =>
              simp only [h2] at h ⊢
              cases h3 : rethrowing ((b.read info.version).run dev1) with
              | error e => rw [h3] at h; cases h
              | ok q =>
                obtain ⟨a, dev2⟩ := q
                simp only [h3] at h ⊢
                cases h4 : readBlocksLoop rec l k info.recordEnd dev2 with
                | error e => rw [h4] at h; cases h
                | ok q =>
                  obtain ⟨rest, dev3⟩ := q
                  simp only [h4] at h
                  cases h
                  have : n ∈ rest.map (·.1) := by
                    rcases List.mem_cons.1 (show n ∈ info.name :: rest.map (·.1) from hn) with h' | h'
                    · exact absurd h'.symm hi
                    · exact h'
                  rw [ih _ _ _ _ h4 this]

end Lcio
