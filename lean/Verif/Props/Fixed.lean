import Verif.Spec.Fixed
import Verif.Props.Events
import Verif.Props.EventCases
/-
**C93** Classes of users with a fixed number of values.
-/
namespace Props
open Sio Spec Lcio

theorem genericSetAt {α : Type} (zero : α) (l : List α) (j : W32) (v : α) (h : j.toNat < l.length) : Generic.setAt zero true l j v = .ok (l.set j.toNat v) := by
  unfold Generic.setAt
  simp only [Bool.not_true, Bool.false_eq_true, and_false, if_false, if_pos h]

theorem fixed_setAll (K : FixedClass) (sets : List Generic.Setter) (g : Generic) (hfix : g.fixed = true) (hg : HasSizes K g) (h : ∀ s ∈ sets, HasValue K s) :
    ∃ g', setAll g sets = .ok g' ∧ HasSizes K g' ∧ g'.fixed = true ∧
      (∀ i, g'.ints[i]? = (g.ints[i]?).map fun x => sets.foldl (afterInt i) x) ∧
      (∀ i, g'.floats[i]? = (g.floats[i]?).map fun x => sets.foldl (afterFloat i) x) ∧
      (∀ i, g'.doubles[i]? = (g.doubles[i]?).map fun x => sets.foldl (afterDouble i) x) := by
  induction sets generalizing g with
  | nil => exact ⟨g, rfl, hg, hfix, by simp, by simp, by simp⟩
  | cons s ss ih =>
    have hs := h s (List.mem_cons_self ..)
    have hss : ∀ s ∈ ss, HasValue K s := fun s hs => h s (List.mem_cons_of_mem _ hs)
    have key : ∀ {α : Type} (l : List α) (j i : Nat) (w : α), (l.set j w)[i]? = (l[i]?).map fun x => if j = i then w else x := by
      intro α l j i w
      rw [List.getElem?_set]
      by_cases hj : j = i
      · subst hj
        by_cases hl : j < l.length
        · simp [hl]
        · simp [hl]
      · simp [hj]
    cases s with
    | setIntVal j w =>
      have e : g.change false (.setIntVal j w) = .ok { g with ints := g.ints.set j.toNat w } := by
        simp only [Generic.change, hfix, genericSetAt 0 g.ints j w (by rw [hg.1]; exact hs)]; rfl
      obtain ⟨g', k1, k2, k3, k4, k5, k6⟩ := ih { g with ints := g.ints.set j.toNat w } hfix ⟨by simpa using hg.1, hg.2.1, hg.2.2⟩ hss
      refine ⟨g', by simp only [setAll, e, k1], k2, k3, fun i => ?_, k5, k6⟩
      rw [k4 i, key, Option.map_map]
      rfl
    | setFloatVal j w =>
      have e : g.change false (.setFloatVal j w) = .ok { g with floats := g.floats.set j.toNat w } := by
        simp only [Generic.change, hfix, genericSetAt 0 g.floats j w (by rw [hg.2.1]; exact hs)]; rfl
      obtain ⟨g', k1, k2, k3, k4, k5, k6⟩ := ih { g with floats := g.floats.set j.toNat w } hfix ⟨hg.1, by simpa using hg.2.1, hg.2.2⟩ hss
      refine ⟨g', by simp only [setAll, e, k1], k2, k3, k4, fun i => ?_, k6⟩
      rw [k5 i, key, Option.map_map]
      rfl
    | setDoubleVal j w =>
      have e : g.change false (.setDoubleVal j w) = .ok { g with doubles := g.doubles.set j.toNat w } := by
        simp only [Generic.change, hfix, genericSetAt 0 g.doubles j w (by rw [hg.2.2]; exact hs)]; rfl
      obtain ⟨g', k1, k2, k3, k4, k5, k6⟩ := ih { g with doubles := g.doubles.set j.toNat w } hfix ⟨hg.1, hg.2.1, by simpa using hg.2.2⟩ hss
      refine ⟨g', by simp only [setAll, e, k1], k2, k3, k4, k5, fun i => ?_⟩
      rw [k6 i, key, Option.map_map]
      rfl

theorem wrap_iff (K : FixedClass) (g : Generic) : (HasSizes K g → K.wrap (.impl g) = .ok g) ∧ (¬ HasSizes K g → K.wrap (.impl g) = .error .lcException) := by
  unfold FixedClass.wrap HasSizes
  simp only
  refine ⟨fun h => ?_, fun h => ?_⟩
  · rw [if_neg (by rw [h.1, h.2.1, h.2.2]; simp)]
  · rw [if_pos]
    by_cases h1 : g.ints.length = K.nInt
    · by_cases h2 : g.floats.length = K.nFloat
      · exact .inr (.inr fun h3 => h ⟨h1, h2, h3⟩)
      · exact .inr (.inl h2)
    · exact .inl h1

/-- **C93**, values: an object of any class with a fixed number of values is made, and any of its values are set in any order. Then each value is what it was last set to, or 0, the numbers of values are those of the class, and another object
of the class can be made for the same data. -/
theorem C93_values (K : FixedClass) (sets : List Generic.Setter) (h : ∀ s ∈ sets, HasValue K s) :
    ∃ g, setAll K.make sets = .ok g ∧ HasSizes K g ∧
      (∀ i < K.nInt, g.get (.getIntVal i) = .w32 (lastInt i sets)) ∧ (∀ i < K.nFloat, g.get (.getFloatVal i) = .w32 (lastFloat i sets)) ∧
      (∀ i < K.nDouble, g.get (.getDoubleVal i) = .w64 (lastDouble i sets)) ∧ K.wrap (.impl g) = .ok g ∧ K.wrap (.fixed K g) = .ok g := by
  obtain ⟨g, k1, k2, -, k4, k5, k6⟩ := fixed_setAll K sets K.make rfl ⟨List.length_replicate .., List.length_replicate .., List.length_replicate ..⟩ h
  refine ⟨g, k1, k2, fun i hi => ?_, fun i hi => ?_, fun i hi => ?_, (wrap_iff K g).1 k2, ?_⟩
  · simp [Generic.get, k4 i, FixedClass.make, hi, lastInt]
  · simp [Generic.get, k5 i, FixedClass.make, hi, lastFloat]
  · simp [Generic.get, k6 i, FixedClass.make, hi, lastDouble]
  · have := (wrap_iff K g).1 k2
    simpa [FixedClass.wrap] using this

/-- **C93**, files: objects of such classes in an event that is stored and loaded again can be used with the same class, and have the same values; a class with other numbers of values throws an exception. Partial: as for C44, all objects of a collection must have the same sizes (`GenericColOk`). -/
theorem C93_stored_partial (std : Std Pid) (ignoreNull : Bool) (only wanted : List Str) (h : EventHeader)
    (cols : List (Str × Collection)) (hs : Storable std ignoreNull only wanted h cols) (buf : Str × Str) (opts : W32) (next : Nat) (hnext : 0 < next) :
    ∃ h' cols' T, storeLoadEvent std ignoreNull only wanted buf opts next h cols = .ok (h', cols') ∧
      LoadedEvent (wantedCols wanted (storedCols only cols)) h h' cols' T (fun _ e e' =>
        ∀ (K : FixedClass) (g : Generic), HasSizes K g → e.obj = some (.generic (K.stored g)) →
          ∃ g', e'.obj = some (.generic g') ∧ K.wrap (.impl g') = .ok g' ∧ g'.ints = g.ints ∧ g'.floats = g.floats ∧ g'.doubles = g.doubles ∧
            ∀ K' : FixedClass, (K'.nInt, K'.nFloat, K'.nDouble) ≠ (K.nInt, K.nFloat, K.nDouble) → K'.wrap (.impl g') = .error .lcException) := by
  obtain ⟨h', cols', T, h1, h2⟩ := C44_relations_vectors_generic_partial std ignoreNull only wanted h cols hs buf opts next hnext
  refine ⟨h', cols', T, h1, ⟨h2.run, h2.evt, h2.time, h2.det, h2.ints, h2.floats, h2.strs, h2.pointers, h2.names, h2.heads, h2.subsets, ?_⟩⟩
  refine ⟨h2.objects.1, fun i c c' hc hc' hf => ⟨(h2.objects.2 i c c' hc hc' hf).1, fun j e e' hje hje' K g hg ho => ?_⟩⟩
  have he := (h2.objects.2 i c c' hc hc' hf).2 j e e' hje hje'
  obtain ⟨fixed, hfixed⟩ := he.2.2.2.2 _ ho
  have hsz : HasSizes K (keptGeneric fixed (K.stored g)) := hg
  refine ⟨_, by rw [hfixed], (wrap_iff K _).1 hsz, rfl, rfl, rfl, fun K' hK' => (wrap_iff K' _).2 fun hsz' => hK' ?_⟩
  rw [← hsz.1, ← hsz.2.1, ← hsz.2.2, hsz'.1, hsz'.2.1, hsz'.2.2]

/-- **C93**, the description of event summaries: it lists the integers and floats in the order of their numbers. -/
theorem C93_description_partial : eventSummary.descr = description esInts esFloats esDoubles ∧ eventSummary.nInt = esInts.length ∧ eventSummary.nFloat = esFloats.length := by decide +kernel

/-- **C93** fails for the doubles of event summaries: there are none, but 15 are stored with each. -/
theorem C93_fails_doubles : esDoubles.length = 0 ∧ eventSummary.nDouble = 15 := by decide

/-- **C93** fails for values that the class does not have: setting or reading them is undefined. -/
theorem C93_fails_outside (K : FixedClass) (g : Generic) (hg : HasSizes K g) (hf : g.fixed = true) (j : W32) (v : W32) (h : K.nInt ≤ j.toNat) :
    g.change false (.setIntVal j v) = .error .ub ∧ g.get (.getIntVal j.toNat) = .undef := by
  have : ¬ j.toNat < g.ints.length := by rw [hg.1]; omega
  constructor
  · simp only [Generic.change, Generic.setAt, hf, Bool.not_true, Bool.false_eq_true, and_false, if_false, if_neg this]
    rfl
  · simp [Generic.get, this]

theorem fmem_fresh (cs : List FCall) (m : FMem) (h : ∀ a, m.next ≤ a → m.objs a = none) : ∀ a, (m.run cs).2.next ≤ a → (m.run cs).2.objs a = none := by
  induction cs generalizing m with
  | nil => exact h
  | cons c cs ih =>
    refine ih _ ?_
    have hs : ∀ (a : Nat) (x : Option (Nat × Bool)), (m.objs a).isSome → ∀ b, m.next ≤ b → setAt m.objs a x b = none := by
      intro a x ha b hb
      simp only [setAt]
      rw [if_neg (fun e => by subst e; rw [h b hb] at ha; cases ha)]
      exact h b hb
    have hn : ∀ (x : Option (Nat × Bool)) b, m.next + 1 ≤ b → setAt m.objs m.next x b = none := by
      intro x b hb
      simp only [setAt]
      rw [if_neg (by omega)]
      exact h b (by omega)
    cases c with
    | make K => exact hn _
    | load g => exact h
    | wrap K d =>
      simp only [FMem.step]
      split
      · exact h
      · split
        · exact h
        · exact hn _
    | copy a =>
      simp only [FMem.step]
      split
      · exact h
      · exact hn _
    | delete a =>
      simp only [FMem.step]
      split
      · exact h
      · rename_i ho
        split
        · split
          · exact h
          · exact hs a _ (by rw [ho]; rfl)
        · exact hs a _ (by rw [ho]; rfl)
    | set a s =>
      simp only [FMem.step]
      split
      · exact h
      · split
        · exact h
        · split <;> exact h
    | get a q =>
      simp only [FMem.step]
      split
      · exact h
      · split <;> exact h

/-- The data at an address exists, and no object owns it. -/
structure DataKept (m : FMem) (d : Nat) : Prop where
  old : d < m.nextData
  there : m.data d ≠ none
  free : ∀ a o, m.objs a = some (o, true) → o ≠ d

theorem DataKept.step {m : FMem} {d : Nat} (h : DataKept m d) (c : FCall) : DataKept (m.step c).2 d := by
  obtain ⟨h1, h2, h3⟩ := h
  have hset : ∀ (a : Nat) (x : Option (Nat × Bool)), (∀ o, x = some (o, true) → o ≠ d) → ∀ b o, setAt m.objs a x b = some (o, true) → o ≠ d := by
    intro a x hx b o hb
    simp only [setAt] at hb
    split at hb
    · exact hx o hb
    · exact h3 b o hb
  have hdat : ∀ (a : Nat) (x : Option Generic), (a = d → x ≠ none) → setAt m.data a x d ≠ none := by
    intro a x hx
    simp only [setAt]
    split
    · rename_i e; exact hx e.symm
    · exact h2
  cases c with
  | make K => exact ⟨Nat.lt_succ_of_lt h1, hdat _ _ (fun _ => by simp), hset _ _ (fun o ho => by cases ho; omega)⟩
  | load g => exact ⟨Nat.lt_succ_of_lt h1, hdat _ _ (fun _ => by simp), h3⟩
  | wrap K e =>
    simp only [FMem.step]
    split
    · exact ⟨h1, h2, h3⟩
    · split
      · exact ⟨h1, h2, h3⟩
      · exact ⟨h1, h2, hset _ _ (fun o ho => by cases ho)⟩
  | copy a =>
    simp only [FMem.step]
    split
    · exact ⟨h1, h2, h3⟩
    · rename_i o ho
      exact ⟨h1, h2, hset _ _ (fun p hp => h3 a p (by rw [ho]; exact hp))⟩
  | delete a =>
    simp only [FMem.step]
    split
    · exact ⟨h1, h2, h3⟩
    · rename_i e cr ho
      split
      · rename_i hc
        subst hc
        split
        · exact ⟨h1, h2, h3⟩
        · exact ⟨h1, hdat _ _ (fun he => absurd he (h3 a e ho)), hset _ _ (fun o ho => by cases ho)⟩
      · exact ⟨h1, h2, hset _ _ (fun o ho => by cases ho)⟩
  | set a s =>
    simp only [FMem.step]
    split
    · exact ⟨h1, h2, h3⟩
    · split
      · exact ⟨h1, h2, h3⟩
      · split
        · exact ⟨h1, h2, h3⟩
        · exact ⟨h1, hdat _ _ (fun _ => by simp), h3⟩
  | get a q =>
    simp only [FMem.step]
    split
    · exact ⟨h1, h2, h3⟩
    · split <;> exact ⟨h1, h2, h3⟩

theorem DataKept.run {d : Nat} (cs : List FCall) {m : FMem} (h : DataKept m d) : DataKept (m.run cs).2 d := by
  induction cs generalizing m with
  | nil => exact h
  | cons c cs ih => exact ih (h.step c)

/-- All objects have data that was made before. -/
theorem fmem_below (cs : List FCall) (m : FMem) (h : ∀ a o c, m.objs a = some (o, c) → o < m.nextData) (hd : ∀ k g, m.data k = some g → k < m.nextData) :
    ∀ a o c, (m.run cs).2.objs a = some (o, c) → o < (m.run cs).2.nextData := by
  induction cs generalizing m with
  | nil => exact h
  | cons c cs ih =>
    have hset : ∀ (n a : Nat) (x : Option (Nat × Bool)), m.nextData ≤ n → (∀ o c, x = some (o, c) → o < n) → ∀ b o c, setAt m.objs a x b = some (o, c) → o < n := by
      intro n a x hn hx b o c hb
      simp only [setAt] at hb
      split at hb
      · exact hx o c hb
      · exact Nat.lt_of_lt_of_le (h b o c hb) hn
    have hdat : ∀ (n a : Nat) (x : Option Generic), m.nextData ≤ n → a < n → ∀ k g, setAt m.data a x k = some g → k < n := by
      intro n a x hn ha k g hk
      simp only [setAt] at hk
      split at hk
      · rename_i e; rw [e]; exact ha
      · exact Nat.lt_of_lt_of_le (hd k g hk) hn
    have key : (∀ a o x, (m.step c).2.objs a = some (o, x) → o < (m.step c).2.nextData) ∧ (∀ k g, (m.step c).2.data k = some g → k < (m.step c).2.nextData) := by
      cases c with
      | make K => exact ⟨hset _ _ _ (Nat.le_succ _) (fun o c ho => by cases ho; exact Nat.lt_succ_self _), hdat _ _ _ (Nat.le_succ _) (Nat.lt_succ_self _)⟩
      | load g => exact ⟨fun a o c ho => Nat.lt_succ_of_lt (h a o c ho), hdat _ _ _ (Nat.le_succ _) (Nat.lt_succ_self _)⟩
      | wrap K e =>
        simp only [FMem.step]
        split
        · exact ⟨h, hd⟩
        · rename_i g hg
          split
          · exact ⟨h, hd⟩
          · exact ⟨hset _ _ _ (Nat.le_refl _) (fun o c ho => by cases ho; exact hd _ _ hg), hd⟩
      | copy a =>
        simp only [FMem.step]
        split
        · exact ⟨h, hd⟩
        · rename_i o ho
          exact ⟨hset _ _ _ (Nat.le_refl _) (fun p c hp => h a p c (by rw [ho]; exact hp)), hd⟩
      | delete a =>
        simp only [FMem.step]
        split
        · exact ⟨h, hd⟩
        · rename_i e cr ho
          split
          · split
            · exact ⟨h, hd⟩
            · exact ⟨hset _ _ _ (Nat.le_refl _) (fun o c ho => by cases ho), hdat _ _ _ (Nat.le_refl _) (h a e cr ho)⟩
          · exact ⟨hset _ _ _ (Nat.le_refl _) (fun o c ho => by cases ho), hd⟩
      | set a s =>
        simp only [FMem.step]
        split
        · exact ⟨h, hd⟩
        · rename_i e cr ho
          split
          · exact ⟨h, hd⟩
          · split
            · exact ⟨h, hd⟩
            · exact ⟨h, hdat _ _ _ (Nat.le_refl _) (h a e cr ho)⟩
      | get a q =>
        simp only [FMem.step]
        split
        · exact ⟨h, hd⟩
        · split <;> exact ⟨h, hd⟩
    exact ih _ key.1 key.2

/-- **C93**. Data that was read from a file belongs to the event: whatever is done before and after it is read, with objects that are made for it, copied, changed and deleted, the data is not deleted. -/
theorem C93_loaded (before after : List FCall) (g : Generic) :
    let m := (FMem.run {} before).2
    ∃ g', (m.run (.load g :: after)).2.data m.nextData = some g' := by
  intro m
  have hb := fmem_below before {} (fun a o c h => by cases h) (fun k g h => by cases h)
  have hk : DataKept (m.step (.load g)).2 m.nextData := by
    refine ⟨Nat.lt_succ_self _, by simp [FMem.step, setAt], fun a o ho he => ?_⟩
    have := hb a o true ho
    subst he
    exact Nat.lt_irrefl _ this
  have := (hk.run after).there
  cases hd : ((m.step (.load g)).2.run after).2.data m.nextData with
  | none => exact absurd hd this
  | some g' => exact ⟨g', hd⟩

/-- Two objects for the same data, both deleted. -/
example : ∃ g', (FMem.run {} [.make eventSummary, .load eventSummary.make, .wrap eventSummary 1, .copy 1, .set 1 (.setIntVal 0 5), .delete 1, .delete 2, .delete 0]).2.data 1 = some g' :=
  C93_loaded [.make eventSummary] [.wrap eventSummary 1, .copy 1, .set 1 (.setIntVal 0 5), .delete 1, .delete 2, .delete 0] eventSummary.make

/-- **C93** fails for copies of objects that own their data, which the class allows ("use with care"): after any history, the copy and the original have the same data, which is deleted twice when both are; and it is undefined to use one after the
other was deleted. -/
theorem C93_fails_copied (cs : List FCall) (a d : Nat) (g : Generic) (ho : (FMem.run {} cs).2.objs a = some (d, true)) (hd : (FMem.run {} cs).2.data d = some g) (q : Generic.Getter) :
    let m := (FMem.run {} cs).2
    (m.run [.copy a, .delete a, .get m.next q, .delete m.next]).1 = [.ok none, .ok none, .error .ub, .error .ub] := by
  intro m
  have hfresh := fmem_fresh cs {} (fun _ _ => rfl)
  have hlt : a < m.next := Nat.lt_of_not_le fun h => by rw [hfresh a h] at ho; cases ho
  have hne : a ≠ m.next := by omega
  have ho : m.objs a = some (d, true) := ho
  have hd : m.data d = some g := hd
  simp only [FMem.run, FMem.step, ho, setAt, if_neg hne, hd, if_true, if_neg hne.symm]

/-! ## Cases -/

/-- The thrust and the number of electrons of an event. -/
example : ∃ g, setAll eventSummary.make [.setFloatVal 2 0x3f000000, .setIntVal 4 1, .setIntVal 4 2] = .ok g ∧ g.get (.getIntVal 4) = .w32 2 ∧ g.get (.getFloatVal 2) = .w32 0x3f000000 ∧ g.get (.getIntVal 0) = .w32 0 := by
  obtain ⟨g, h1, -, h2, h3, -⟩ := C93_values eventSummary [.setFloatVal 2 0x3f000000, .setIntVal 4 1, .setIntVal 4 2] (by
    intro s hs
    simp only [List.mem_cons, List.not_mem_nil, or_false] at hs
    rcases hs with rfl | rfl | rfl <;> show (_ : Nat) < _ <;> decide)
  exact ⟨g, h1, h2 4 (by decide), h3 2 (by decide), h2 0 (by decide)⟩

/-- An event with two event summaries can be stored. -/
def summaryEvent : List (Str × Collection) :=
  [(str "EventSummary", { type := str "LCGenericObject", elems := [⟨60, some (.generic (eventSummary.stored eventSummary.make))⟩, ⟨61, some (.generic (eventSummary.stored { eventSummary.make with ints := 7 :: List.replicate 12 0 }))⟩] })]

theorem summaryEvent_ok : Storable ieee false [] [] {} summaryEvent := by decide +kernel

/-- The hypotheses of `C93_stored_partial` are met. -/
example : (storeLoadEvent ieee false [] [] ([], []) 0 1 {} summaryEvent).toOption.isSome = true := by
  obtain ⟨h', cols', T, h1, -⟩ := C93_stored_partial ieee false [] [] {} summaryEvent summaryEvent_ok ([], []) 0 1 (by decide)
  rw [h1]
  rfl

/-- The hypotheses of `C93_fails_copied` are met. -/
example : (FMem.run {} [.load { ints := [1] }, .make eventSummary]).2.objs 0 = some (1, true) := rfl

end Props
