import Verif.Spec.CheckElements
import Verif.Props.Skip
/-
C95: `lcio_check_col_elements`.
-/
namespace Props
open Sio Lcio Util Spec

theorem highest_pos (o : CheckOpts) (u : Nat) (h : highest o = some u) : 0 < u := by
  unfold highest at h
  by_cases h1 : o.maxElements > 0
  · rw [if_pos h1] at h; cases h; exact h1
  · rw [if_neg h1] at h
    by_cases h2 : o.expElements > 0
    · rw [if_pos h2] at h; cases h; omega
    · rw [if_neg h2] at h; cases h

theorem max_of_error (k : Nat) : (if k = 0 then 1 else k) = max 1 k := by
  by_cases h : k = 0
  · subst h; rfl
  · rw [if_neg h]; omega

theorem wide_spec (o : CheckOpts) (h4 : ¬ (o.expElements = 0 ∧ (o.absElementError > 0 ∨ o.relElementError ≠ none))) : o.wide = some (lowest o, (highest o).getD 0) := by
  unfold CheckOpts.wide
  simp only [Option.isSome_iff_ne_none]
  have hmn : ∀ a : Nat, (if o.minElements = 0 then a else o.minElements) = if o.minElements > 0 then o.minElements else a := by
    intro a; by_cases h : o.minElements = 0
    · rw [if_pos h, if_neg (by omega)]
    · rw [if_neg h, if_pos (by omega)]
  have hmx : ∀ a : Nat, (if o.maxElements = 0 then a else o.maxElements) = (if o.maxElements > 0 then some o.maxElements else some a).getD 0 := by
    intro a; by_cases h : o.maxElements = 0
    · rw [if_pos h, if_neg (by omega)]; rfl
    · rw [if_neg h, if_pos (by omega)]; rfl
  by_cases hx : o.expElements > 0
  · rw [if_pos hx, hmn, hmx, hmn, hmx]
    unfold lowest highest
    rw [if_pos hx, if_pos hx]
    cases hre : o.relElementError with
    | some f =>
      have ht : tolerance o = max 1 (f o.expElements) := by unfold tolerance; rw [hre]
      rw [if_pos (.inr (by simp)), ht]
      simp only [max_of_error]
    | none =>
      by_cases hae : o.absElementError > 0
      · have ht : tolerance o = o.absElementError := by unfold tolerance; rw [hre]; simp only; rw [if_pos hae]
        rw [if_pos (.inl hae), ht]
      · have ht : tolerance o = if o.average then 1 else 0 := by unfold tolerance; rw [hre]; simp only; rw [if_neg hae]
        rw [if_neg (by rintro (h | h); exact hae h; exact h rfl), ht]
        cases o.average <;> simp
  · rw [if_neg hx, if_neg (fun h => h4 ⟨by omega, h⟩)]
    unfold lowest highest
    rw [if_neg hx, if_neg hx]
    congr 2
    · by_cases h : o.minElements > 0
      · rw [if_pos h]
      · rw [if_neg h]; omega
    · by_cases h : o.maxElements > 0
      · rw [if_pos h]; rfl
      · rw [if_neg h]; simp; omega

/-- The options are accepted just if they are not wrong, and then the range is the one that is asked for. -/
theorem range_spec (o : CheckOpts) : (WrongOptions o → o.range = none) ∧ (¬ WrongOptions o → o.range = some (lowest o, (highest o).getD 0)) := by
  unfold WrongOptions CheckOpts.range
  simp only [Option.isSome_iff_ne_none]
  by_cases h1 : o.absElementError > 0 ∧ o.relElementError ≠ none
  · rw [if_pos h1]
    exact ⟨fun _ => rfl, fun h => absurd (.inl h1) h⟩
  rw [if_neg h1]
  by_cases h2 : o.absEventError > 0 ∧ o.relEventError ≠ none
  · rw [if_pos h2]
    exact ⟨fun _ => rfl, fun h => absurd (.inr (.inl h2)) h⟩
  rw [if_neg h2]
  by_cases h3 : (o.absEventError > 0 ∨ o.relEventError ≠ none) ∧ o.average = true
  · rw [if_pos h3]
    exact ⟨fun _ => rfl, fun h => absurd (.inr (.inr (.inl h3))) h⟩
  rw [if_neg h3]
  by_cases h4 : o.expElements = 0 ∧ (o.absElementError > 0 ∨ o.relElementError ≠ none)
  · have hw : o.wide = none := by
      unfold CheckOpts.wide
      simp only [Option.isSome_iff_ne_none]
      rw [if_neg (by omega), if_pos h4.2]
    rw [hw]
    exact ⟨fun _ => rfl, fun h => absurd (.inr (.inr (.inr (.inl h4)))) h⟩
  have hw : o.wide = some (lowest o, (highest o).getD 0) := wide_spec o h4
  have final : (if (highest o).getD 0 > 0 ∧ (highest o).getD 0 < lowest o then none else some (lowest o, (highest o).getD 0)) =
      if (∃ u, highest o = some u ∧ u < lowest o) then none else some (lowest o, (highest o).getD 0) := by
    cases hh : highest o with
    | none => simp
    | some u =>
      have := highest_pos o u hh
      by_cases hu : u < lowest o
      · rw [if_pos ⟨this, hu⟩, if_pos ⟨u, rfl, hu⟩]
      · rw [if_neg (fun h => hu h.2), if_neg (by rintro ⟨v, hv, h⟩; cases hv; exact hu h)]
  rw [hw]
  simp only
  rw [final]
  by_cases h5 : ∃ u, highest o = some u ∧ u < lowest o
  · rw [if_pos h5]
    exact ⟨fun _ => rfl, fun h => absurd (.inr (.inr (.inr (.inr h5)))) h⟩
  · rw [if_neg h5]
    refine ⟨fun h => ?_, fun _ => rfl⟩
    rcases h with h | h | h | h | h
    · exact absurd h h1
    · exact absurd h h2
    · exact absurd h h3
    · exact absurd h h4
    · exact absurd h h5

/-- The counters after a list of events. -/
theorem counts_after (o : CheckOpts) (mn mx : Nat) (hr : mx > 0 → mn ≤ mx) (sizes : List (Option Nat)) : ∀ c : CheckCounts,
    sizes.foldl (fun c s => c.add o mn mx s) c =
      { elements := c.elements + (sizes.filterMap id).sum, events := c.events + sizes.length,
        failed := c.failed + sizes.countP (fun s => match s with
          | none => o.pedantic
          | some n => decide (n < mn) || (decide (mx > 0) && decide (n > mx))),
        skipped := c.skipped + (sizes.length - (sizes.filterMap id).length) } := by
  induction sizes with
  | nil => intro c; simp
  | cons s ss ih =>
    intro c
    rw [List.foldl_cons, ih]
    have hle : (ss.filterMap fun x => x).length ≤ ss.length := List.length_filterMap_le _ _
    cases s with
    | none =>
      cases hp : o.pedantic <;> simp [CheckCounts.add, hp] <;> omega
    | some n =>
      by_cases h1 : n < mn
      · have h2 : ¬ (mx > 0 ∧ n > mx) := by rintro ⟨a, b⟩; have := hr a; omega
        by_cases hm : mx > 0
        · have : ¬ n > mx := fun h => h2 ⟨hm, h⟩
          simp [CheckCounts.add, h1, hm, this]; omega
        · simp [CheckCounts.add, h1, hm]; omega
      · by_cases hm : mx > 0
        · by_cases h2 : n > mx
          · simp [CheckCounts.add, h1, hm, h2]; omega
          · simp [CheckCounts.add, h1, hm, h2]; omega
        · simp [CheckCounts.add, h1, hm]; omega

theorem add_events (o : CheckOpts) (mn mx : Nat) (c : CheckCounts) (s : Option Nat) : (c.add o mn mx s).events = c.events + 1 := by
  unfold CheckCounts.add
  cases s with
  | none => cases o.pedantic <;> rfl
  | some n => simp only; repeat' split
              all_goals rfl

/-- The loop looks at the events read, up to the maximum. -/
theorem checkLoop_eq (cfg : RConfig) (o : CheckOpts) (name : Str) (mn mx : Nat) : ∀ (fuel : Nat) (es : List EventData) (c : CheckCounts) (r : Reader), allEvents cfg fuel r = .ok es →
    (o.maxEvents = 0 ∨ c.events < o.maxEvents) →
    checkLoop cfg o name mn mx fuel c r = .ok (((if o.maxEvents = 0 then es else es.take (o.maxEvents - c.events)).map (sizeIn name)).foldl (fun c s => c.add o mn mx s) c) := by
  intro fuel
  induction fuel with
  | zero => intro es c r h; simp [allEvents] at h
  | succ fuel ih =>
    intro es c r h hc
    unfold allEvents at h
    unfold checkLoop
    cases hr : r.readNextEvent cfg with
    | mk a r' =>
      rw [hr] at h
      cases a with
      | error e => simp at h
      | ok v => cases v with
        | none => simp at h; subst h; simp
        | some e =>
          simp only at h ⊢
          cases ha : allEvents cfg fuel r' with
          | error e => rw [ha] at h; simp at h
          | ok es' =>
            rw [ha] at h
            simp only [Except.ok.injEq] at h
            subst h
            have hev := add_events o mn mx c (sizeIn name e)
            by_cases h0 : o.maxEvents = 0
            · rw [if_neg (by rw [h0]; simp), ih es' _ r' ha (.inl h0), if_pos h0, if_pos h0]
              rfl
            · have hlt : c.events < o.maxEvents := hc.resolve_left h0
              rw [if_neg h0, show o.maxEvents - c.events = (o.maxEvents - (c.events + 1)) + 1 by omega, List.take_succ_cons, List.map_cons, List.foldl_cons]
              by_cases hge : (c.add o mn mx (sizeIn name e)).events ≥ o.maxEvents
              · rw [if_pos ⟨h0, hge⟩, show o.maxEvents - (c.events + 1) = 0 by omega]
                rfl
              · rw [if_neg (fun h => hge h.2), ih es' _ r' ha (.inr (by omega)), if_neg h0, hev]

/-- The result for the numbers of elements in the events. -/
theorem result_spec (cmp : AvgCmp) (hx : AvgExact cmp) (o : CheckOpts) (ho : ¬ WrongOptions o) (sizes : List (Option Nat))
    (hs : o.average = true → sizes.length < 2 ^ 24 ∧ (sizes.filterMap id).sum < 2 ^ 24 ∧ lowest o < 2 ^ 24 ∧ ∀ u, highest o = some u → u < 2 ^ 24) :
    (sizes.foldl (fun (c : CheckCounts) s => c.add o (lowest o) ((highest o).getD 0) s) {}).result cmp o (lowest o) ((highest o).getD 0) = true ↔ Passes o sizes := by
  have hr : (highest o).getD 0 > 0 → lowest o ≤ (highest o).getD 0 := by
    intro h
    cases hh : highest o with
    | none => rw [hh] at h; simp at h
    | some u =>
      simp only [Option.getD_some]
      by_cases hu : u < lowest o
      · exact absurd (.inr (.inr (.inr (.inr ⟨u, hh, hu⟩)))) ho
      · omega
  have hbig : ∀ n, (decide ((highest o).getD 0 > 0) && decide (n > (highest o).getD 0)) = decide (∃ u, highest o = some u ∧ u < n) := by
    intro n
    cases hh : highest o with
    | none => simp
    | some u => have := highest_pos o u hh; simp [this]
  rw [counts_after o _ _ hr]
  have hlen : (sizes.filterMap id).length ≤ sizes.length := List.length_filterMap_le _ _
  have hex : (∃ n, some n ∈ sizes) ↔ 0 < (sizes.filterMap id).length := by
    rw [List.length_pos_iff_exists_mem]
    simp
  have hcnt : sizes.countP (fun s => match s with
          | none => o.pedantic
          | some n => decide (n < lowest o) || (decide ((highest o).getD 0 > 0) && decide (n > (highest o).getD 0))) = sizes.countP (fun s => decide (EventFails o s)) := by
    congr 1
    funext s
    cases s with
    | none => cases hp : o.pedantic <;> simp [EventFails, hp]
    | some n =>
      show (decide (n < lowest o) || (decide ((highest o).getD 0 > 0) && decide (n > (highest o).getD 0))) = _
      rw [hbig, show decide (EventFails o (some n)) = decide (n < lowest o ∨ ∃ u, highest o = some u ∧ u < n) from rfl]
      by_cases c1 : n < lowest o <;> by_cases c2 : ∃ u, highest o = some u ∧ u < n <;> simp [c1, c2]
  unfold CheckCounts.result Passes
  simp only [Nat.zero_add, hcnt]
  rw [hex]
  by_cases h0 : sizes.length > 0
  · rw [if_pos h0]
    by_cases h1 : 0 < (sizes.filterMap id).length
    · rw [if_neg (by omega)]
      simp only [h1, true_and]
      cases ha : o.average with
      | false =>
        simp only [Bool.false_eq_true, if_false, allowedFailures]
        generalize sizes.countP (fun s => decide (EventFails o s)) = k
        cases o.relEventError <;> simp
      | true =>
        obtain ⟨b1, b2, b3, b4⟩ := hs ha
        simp only [if_true]
        have hn : (if o.pedantic then sizes.length else sizes.length - (sizes.length - (sizes.filterMap id).length)) = (if o.pedantic then sizes.length else (sizes.filterMap id).length) := by
          cases o.pedantic with
          | true => rfl
          | false => show sizes.length - (sizes.length - (sizes.filterMap id).length) = (sizes.filterMap id).length; omega
        rw [hn]
        have hn1 : 0 < (if o.pedantic then sizes.length else (sizes.filterMap id).length) := by
          cases o.pedantic with
          | true => exact h0
          | false => exact h1
        have hn2 : (if o.pedantic then sizes.length else (sizes.filterMap id).length) < 2 ^ 24 := by
          cases o.pedantic with
          | true => exact b1
          | false => show (sizes.filterMap id).length < _; omega
        generalize (if o.pedantic then sizes.length else (sizes.filterMap id).length) = n at hn1 hn2
        generalize (sizes.filterMap id).sum = t at b2
        have e1 := (hx t n (lowest o) hn1 b2 hn2 b3).1
        by_cases c1 : cmp.below t n (lowest o) = true
        · rw [if_pos c1]
          have := e1.1 c1
          simp; omega
        · rw [if_neg c1]
          have c1' : lowest o * n ≤ t := by
            exact Nat.le_of_not_lt fun h => c1 (e1.2 h)
          simp only [c1', true_and]
          cases hh : highest o with
          | none => simp
          | some u =>
            have := highest_pos o u hh
            have e2 := (hx t n u hn1 b2 hn2 (b4 u hh)).2
            simp only [Option.getD_some, this, true_and]
            by_cases c2 : cmp.above t n u = true
            · rw [if_pos c2]
              have := e2.1 c2
              simp; omega
            · rw [if_neg c2]
              have c2' : t ≤ u * n := by
                exact Nat.le_of_not_lt fun h => c2 (e2.2 h)
              simp [c2']
    · rw [if_pos (by omega)]
      exact ⟨fun h => (nomatch h), fun h => absurd h.1 h1⟩
  · rw [if_neg h0]
    exact ⟨fun h => (nomatch h), fun h => absurd h.1 (by omega)⟩

/-- Events after skipping. -/
theorem filter_afterEvents (n : Nat) (its : List (Str × Put)) : (afterEvents n its).filter (fun x => x.2.isEvent) = (its.filter (fun x => x.2.isEvent)).drop n := by
  induction its generalizing n with
  | nil => cases n <;> simp [afterEvents]
  | cons x its ih =>
    cases n with
    | zero => rfl
    | succ n => cases hx : x.2.isEvent <;> simp [afterEvents, hx, ih]

theorem afterEvents_subset (n : Nat) (its : List (Str × Put)) (x : Str × Put) (h : x ∈ afterEvents n its) : x ∈ its := by
  induction its generalizing n with
  | nil => cases n <;> simp [afterEvents] at h
  | cons y its ih =>
    cases n with
    | zero => exact h
    | succ n =>
      cases hy : y.2.isEvent with
      | true => simp [afterEvents, hy] at h; exact List.mem_cons_of_mem _ (ih _ h)
      | false => simp [afterEvents, hy] at h; exact List.mem_cons_of_mem _ (ih _ h)

theorem sum_sublist {a b : List Nat} (h : a.Sublist b) : a.sum ≤ b.sum := by
  induction h with
  | slnil => simp
  | cons x _ ih => simp; omega
  | cons_cons x _ ih => simp; omega

/-- **C95.** `lcio_check_col_elements` with any options: the files are those of any sessions, `es` are the events in them as the reader returns them (C31, C32). If the options cannot be used together, the program fails. Otherwise it succeeds just if the numbers of
elements of the collection in the events looked at are as asked for.

Missing: a start event that is not in the first file, see `C95_fails_start`; averages of numbers that are not exact as `float`. -/
theorem C95_result_partial (cfg : RConfig) (hcodec : Lossless cfg.codec) (cmp : AvgCmp) (hx : AvgExact cmp) (files : List (Str × List Byte)) (contents : List (Str × List Session))
    (h : FilesHold cfg.codec cfg.std files contents) (hne : files ≠ []) (hl : ∀ c ∈ contents, Loadable cfg (allPuts c.2)) (es : List EventData)
    (hes : ((contentsOf contents).filter (fun x => x.2.isEvent)).map (fun x => delivery cfg x.1 x.2) = es.map (fun e => some (.event e)))
    (o : CheckOpts) (name : Str) (hstart : ∀ c cs, contents = c :: cs → o.startEvent ≤ (allPuts c.2).countP Put.isEvent)
    (hs : o.average = true → es.length < 2 ^ 24 ∧ ((es.map (sizeIn name)).filterMap id).sum < 2 ^ 24 ∧ lowest o < 2 ^ 24 ∧ ∀ u, highest o = some u → u < 2 ^ 24) :
    (WrongOptions o → checkElements cfg cmp o name files (es.length + 1) = .ok false) ∧
    (¬ WrongOptions o → ∃ b, checkElements cfg cmp o name files (es.length + 1) = .ok b ∧ (b = true ↔ Passes o (lookedAt o (es.map (sizeIn name))))) := by
  refine ⟨fun hw => ?_, fun hw => ?_⟩
  · unfold checkElements; rw [(range_spec o).1 hw]
  · obtain ⟨r, c, cs, h3, h4, h5, h6, h7⟩ := open_at cfg hcodec files _ h hne hl
    obtain ⟨r', ps', b1, b2, b3⟩ := skip_at cfg _ _ _ _ h5 o.startEvent (hstart c cs h4)
    have hskip : (if o.startEvent > 0 then r.skipNEvents o.startEvent else (.ok (), r)) = (.ok (), r') := by
      by_cases h0 : o.startEvent > 0
      · rw [if_pos h0]; exact b1
      · rw [if_neg h0]
        have e0 : o.startEvent = 0 := by omega
        rw [e0] at b1
        have : r.skipNEvents ((0 : Nat) : Int) = (.ok (), r) := rfl
        rw [this] at b1
        exact b1
    have hall : allEvents cfg (es.length + 1) r' = .ok (es.drop o.startEvent) := by
      apply allEvents_serve cfg _ _ (following c.1 ps' (cs.map fun c => (c.1, allPuts c.2))) r' (by rw [List.length_drop]; omega)
      · have hf : (following c.1 ps' (cs.map fun c => (c.1, allPuts c.2))).filter (fun x => x.2.isEvent) = ((contentsOf contents).filter (fun x => x.2.isEvent)).drop o.startEvent := by
          rw [← h6, following_eq, following_eq, b3, List.filter_append, List.filter_append, filter_afterEvents, List.drop_append_of_le_length]
          have := hstart c cs h4
          rw [List.filter_map, List.length_map]
          rw [List.countP_eq_length_filter] at this
          exact this
        rw [hf, List.map_drop, hes, List.map_drop]
      · intro gs
        apply gets_serve cfg gs r' _ _ _ b2
        intro x hx'
        apply h7 x
        rw [← h6, following_eq, List.mem_append]
        rw [following_eq, List.mem_append] at hx'
        refine hx'.imp (fun hm => ?_) id
        rw [b3] at hm
        exact afterEvents_subset _ _ _ hm
    unfold checkElements
    rw [(range_spec o).2 hw]
    simp only [h3, hskip]
    rw [checkLoop_eq cfg o name _ _ _ _ {} r' hall (by by_cases h0 : o.maxEvents = 0; exact .inl h0; exact .inr (by show 0 < _; omega))]
    refine ⟨_, rfl, ?_⟩
    have hlook : (if o.maxEvents = 0 then es.drop o.startEvent else (es.drop o.startEvent).take (o.maxEvents - 0)).map (sizeIn name) = lookedAt o (es.map (sizeIn name)) := by
      unfold lookedAt
      by_cases h0 : o.maxEvents = 0
      · rw [if_pos h0, if_pos h0, List.map_drop]
      · rw [if_neg h0, if_neg h0, List.map_take, List.map_drop, Nat.sub_zero]
    rw [hlook]
    apply result_spec cmp hx o hw
    intro ha
    obtain ⟨c1, c2, c3, c4⟩ := hs ha
    have hsub : (lookedAt o (es.map (sizeIn name))).Sublist (es.map (sizeIn name)) := by
      unfold lookedAt
      by_cases h0 : o.maxEvents = 0
      · rw [if_pos h0]; exact List.drop_sublist _ _
      · rw [if_neg h0]; exact (List.take_sublist _ _).trans (List.drop_sublist _ _)
    refine ⟨by have := hsub.length_le; rw [List.length_map] at this; omega, ?_, c3, c4⟩
    exact Nat.lt_of_le_of_lt (sum_sublist (hsub.filterMap id)) c2

/-- Comparisons with exact numbers. -/
def exactCmp : AvgCmp := ⟨fun t n b => decide (t < b * n), fun t n b => decide (b * n < t)⟩

theorem exactCmp_exact : AvgExact exactCmp := fun t n b _ _ _ _ => ⟨by simp [exactCmp], by simp [exactCmp]⟩

/-- The options in the usage text: exactly 101 elements; an average of 100 ± 1; 100 ± 3 in all but 10 events. -/
example : ¬ WrongOptions { expElements := 101 } ∧ Passes { expElements := 101 } [some 101, none, some 101] ∧ ¬ Passes { expElements := 101 } [some 101, some 100] ∧
    Passes { average := true, expElements := 100, absElementError := 1 } [some 98, some 103] ∧ ¬ Passes { pedantic := true, average := true, expElements := 100, absElementError := 1 } [some 98, none, some 103] := by
  refine ⟨?_, ⟨⟨101, by simp⟩, by decide⟩, fun h => absurd h.2 (by decide), ⟨⟨98, by simp⟩, ?_⟩, fun h => ?_⟩
  · rintro (h | h | h | h | ⟨u, h, h'⟩)
    · simp at h
    · simp at h
    · simp at h
    · simp at h
    · cases h; exact absurd h' (by decide)
  · refine ⟨by decide, fun u hu => ?_⟩
    cases hu; decide
  · exact absurd h.2.1 (by decide)

/-- A file with an event that has a particle, and an event without collections. -/
def mixedFile : List Byte := match fileAfter idCodec ieee [⟨false, [.event { run := 3, evt := 9 } tinyCols ([], []), .event { run := 3, evt := 10 } [] ([], [])]⟩] with
  | .ok (some b) => b
  | _ => []

example : checkElements sampleCfg exactCmp { expElements := 1 } (str "MC") [(str "f", mixedFile)] 4 = .ok true := by decide +kernel
example : checkElements sampleCfg exactCmp { expElements := 1, pedantic := true } (str "MC") [(str "f", mixedFile)] 4 = .ok false := by decide +kernel
example : checkElements sampleCfg exactCmp { startEvent := 1, expElements := 1 } (str "MC") [(str "f", mixedFile)] 4 = .ok false := by decide +kernel

/-- **C95 fails** for a start event that is not in the first file: the program is ended by an exception, whatever is in the other files. -/
theorem C95_fails_start (cfg : RConfig) (hcodec : Lossless cfg.codec) (cmp : AvgCmp) (files : List (Str × List Byte)) (c : Str × List Session) (cs : List (Str × List Session))
    (h : FilesHold cfg.codec cfg.std files (c :: cs)) (hl : ∀ c' ∈ c :: cs, Loadable cfg (allPuts c'.2)) (o : CheckOpts) (ho : ¬ WrongOptions o) (name : Str)
    (hstart : (allPuts c.2).countP Put.isEvent < o.startEvent) (fuel : Nat) : checkElements cfg cmp o name files (fuel + 1) = .error .badState := by
  obtain ⟨r, r', h1, h2, h3⟩ := C34_fails_at_end cfg hcodec files c cs h hl o.startEvent hstart .event
  unfold checkElements
  rw [(range_spec o).2 ho]
  simp only [h1]
  rw [if_pos (by omega), h2]
  simp only
  unfold checkLoop
  simp only [Get.call] at h3
  revert h3
  cases r'.readNextEvent cfg with
  | mk a b => cases a with
    | error e =>
      intro h3
      simp only [Except.error.injEq] at h3
      subst h3
      rfl
    | ok v => cases v <;> (intro h3; simp at h3)

/-- **C95 fails** for events without elements: `--pedantic` is said to count them as failed, but an empty collection does not count. -/
theorem C95_fails_empty (cfg : RConfig) (hcodec : Lossless cfg.codec) (cmp : AvgCmp) (files : List (Str × List Byte)) (contents : List (Str × List Session))
    (h : FilesHold cfg.codec cfg.std files contents) (hne : files ≠ []) (hl : ∀ c ∈ contents, Loadable cfg (allPuts c.2)) (e : EventData) (es : List EventData)
    (hes : ((contentsOf contents).filter (fun x => x.2.isEvent)).map (fun x => delivery cfg x.1 x.2) = (e :: es).map (fun e => some (.event e)))
    (name : Str) (hn : ∀ e' ∈ e :: es, sizeIn name e' = some 0) : checkElements cfg cmp { pedantic := true } name files ((e :: es).length + 1) = .ok true := by
  have hw : ¬ WrongOptions { pedantic := true } := by
    rintro (h | h | h | h | ⟨u, h, h'⟩)
    · simp at h
    · simp at h
    · simp at h
    · simp at h
    · cases h
  have hsame : ∀ cmp', checkElements cfg cmp { pedantic := true } name files ((e :: es).length + 1) = checkElements cfg cmp' { pedantic := true } name files ((e :: es).length + 1) := by
    intro cmp'; unfold checkElements CheckCounts.result; rfl
  obtain ⟨b, h1, h2⟩ := (C95_result_partial cfg hcodec exactCmp exactCmp_exact files contents h hne hl (e :: es) hes { pedantic := true } name (fun _ _ _ => Nat.zero_le _)
    (fun ha => (nomatch ha))).2 hw
  rw [hsame exactCmp, h1, h2.2]
  have hm : (e :: es).map (sizeIn name) = List.replicate (es.length + 1) (some 0) := by
    rw [List.eq_replicate_iff]
    refine ⟨by simp, fun b hb => ?_⟩
    obtain ⟨x, hx, rfl⟩ := List.mem_map.1 hb
    exact hn x hx
  rw [show lookedAt { pedantic := true } ((e :: es).map (sizeIn name)) = (e :: es).map (sizeIn name) from rfl, hm]
  refine ⟨⟨0, by simp [List.replicate_succ]⟩, ?_⟩
  rw [if_neg (by decide), List.countP_replicate, if_neg (by decide)]
  exact Nat.zero_le _

/-- A file with an event, and the data of an event without a header. -/
def brokenFile : List Byte := match fileAfter idCodec ieee [⟨false, [.event { run := 3, evt := 9 } tinyCols ([], [])]⟩] with
  | .ok (some b) => b ++ (b.drop 136).take 160
  | _ => []

/-- **C95 fails** for damaged files: an exception while reading is taken for the end of the file, and the program can succeed. -/
theorem C95_fails_damaged :
    numbers (gets sampleCfg [.event] (Reader.openFiles sampleCfg false [(str "f", brokenFile)]).2) = .ok [some (3, some 9)] ∧
    numbers (gets sampleCfg [.event, .event] (Reader.openFiles sampleCfg false [(str "f", brokenFile)]).2) = .error .ioException ∧
    checkElements sampleCfg exactCmp { expElements := 1 } (str "MC") [(str "f", brokenFile)] 5 = .ok true := by
  decide +kernel

end Props
