import Verif.Spec.Generations
import Verif.Lcio.SameLemmas
import Verif.Props.Copy
/-
C67: copies of copies.
-/
namespace Props
open Sio Spec Lcio

/-- What was loaded can be stored and copied again. -/
theorem copied_again (std : Std Pid) (hsort : SortLaw std) (hflt : ∀ x, viaFloat std (viaFloat std x) = viaFloat std x) (ignoreNull : Bool)
    (only wanted : List Str) (h : EventHeader) (cols : List (Str × Collection)) (hs : Storable std ignoreNull only wanted h cols)
    (hc : Copyable (wantedCols wanted (storedCols only cols))) (buf : Str × Str) (opts : W32) (next : Nat) (hnext : 0 < next) :
    ∃ h1 cols1, storeLoadEvent std ignoreNull only wanted buf opts next h cols = .ok (h1, cols1) ∧ Storable std ignoreNull [] [] h1 (resolved cols1) ∧
      Copyable (wantedCols [] (storedCols [] (resolved cols1))) := by
  have hl := laws std hsort hflt
  obtain ⟨h1, L, T, e1, e2, e3, e4⟩ := event_loaded std ignoreNull only wanted h cols hs buf opts next hnext
  obtain ⟨hs2, -, -⟩ := stored_again std hl ignoreNull only wanted h h1 cols L T hs hc e2 e3 e4 (kids L)
  have hok : ∀ c ∈ wantedCols wanted (storedCols only cols), CollectionOk std (kindD c.2) c.2 :=
    fun c hc => hs.event.stored c (List.mem_filter.1 hc).1
  have hF : ∀ c ∈ wantedCols wanted (storedCols only cols), First std c.2 := fun c hcW =>
    ⟨hok c hcW, fun h18 => (hc.vertices c hcW h18).1, hc.numbers c hcW, hc.typeNames c hcW⟩
  have hnd := hs.event.addresses.sublist (allTagged_sub wanted _)
  have hst := storedCols_resolved hl e4 hF e3 hnd hc.vertices (kids L) (fun c hcW => by
    have := (List.mem_filter.1 (List.mem_filter.1 hcW).1).2
    rw [Bool.and_eq_true, Bool.not_eq_true'] at this
    exact this.1)
  have hwt : wantedCols [] (resolved (withDaughters (kids L) L)) = resolved (withDaughters (kids L) L) := List.filter_eq_self.2 fun r _ => rfl
  refine ⟨h1, _, e1, hs2, ?_⟩
  rw [hst, hwt]
  exact copyable_again hl e4 hF e3 hnd hc.vertices

/-- **C67** (partial), for copies of copies: what was loaded is stored and loaded again, any number of times, with any buffers and options. The last copy is the same as the
first thing that was loaded. There are the restrictions of `C67_copy_partial` on the event that was stored first; nothing is required of the copies. -/
theorem C67_generations_partial (std : Std Pid) (hsort : SortLaw std) (hflt : ∀ x, viaFloat std (viaFloat std x) = viaFloat std x) (ignoreNull : Bool)
    (only wanted : List Str) (h : EventHeader) (cols : List (Str × Collection)) (hs : Storable std ignoreNull only wanted h cols)
    (hc : Copyable (wantedCols wanted (storedCols only cols))) (buf : Str × Str) (opts : W32) (next : Nat) (hnext : 0 < next) :
    ∃ h1 cols1, storeLoadEvent std ignoreNull only wanted buf opts next h cols = .ok (h1, cols1) ∧
      ∀ gs : List ((Str × Str) × W32 × Nat), gs ≠ [] → (∀ g ∈ gs, 0 < g.2.2) →
        ∃ h2 cols2, generations std ignoreNull gs (h1, cols1) = .ok (h2, cols2) ∧ SameEvent h1 h2 cols1 cols2 := by
  obtain ⟨h1, cols1, a1, -⟩ := copied_again std hsort hflt ignoreNull only wanted h cols hs hc buf opts next hnext
  refine ⟨h1, cols1, a1, fun gs => ?_⟩
  induction gs generalizing only wanted h cols buf opts next h1 cols1 with
  | nil => exact fun hne => (hne rfl).elim
  | cons g gs ih =>
    intro _ hg
    obtain ⟨h1', cols1', b1, b2, b3⟩ := copied_again std hsort hflt ignoreNull only wanted h cols hs hc buf opts next hnext
    rw [a1] at b1
    simp only [Except.ok.injEq, Prod.mk.injEq] at b1
    obtain ⟨rfl, rfl⟩ := b1
    obtain ⟨h1', cols1', c1, c2⟩ := C67_copy_partial std hsort hflt ignoreNull only wanted h cols hs hc buf opts next hnext
    rw [a1] at c1
    simp only [Except.ok.injEq, Prod.mk.injEq] at c1
    obtain ⟨rfl, rfl⟩ := c1
    obtain ⟨buf', opts', next'⟩ := g
    have hn : 0 < next' := hg _ List.mem_cons_self
    obtain ⟨h2, cols2, d1, d2⟩ := c2 buf' opts' next' hn
    simp only [generations, d1]
    cases gs with
    | nil => exact ⟨h2, cols2, rfl, d2⟩
    | cons g' gs =>
      obtain ⟨h3, cols3, e1, e2⟩ := ih [] [] h1 (resolved cols1) b2 b3 buf' opts' next' hn h2 cols2 d1 (by simp) (fun g hg' => hg g (List.mem_cons_of_mem _ hg'))
      exact ⟨h3, cols3, e1, d2.trans e2⟩

/-- The sample event is copied three times. -/
example : ∃ h1 cols1 h2 cols2, storeLoadEvent ieee false [] [] ([], []) 0 1 sampleEventHeader sampleCols = .ok (h1, cols1) ∧
    generations ieee false [(([], []), 0, 1), ((str "x", []), 1, 7), (([], []), 0, 1000)] (h1, cols1) = .ok (h2, cols2) ∧ SameEvent h1 h2 cols1 cols2 := by
  obtain ⟨h1, cols1, a1, a2⟩ := C67_generations_partial ieee ieee_sort viaFloat_twice false [] [] sampleEventHeader sampleCols (by decide +kernel)
    ⟨by decide +kernel, by decide +kernel, by decide +kernel⟩ ([], []) 0 1 (by omega)
  obtain ⟨h2, cols2, b1, b2⟩ := a2 [(([], []), 0, 1), ((str "x", []), 1, 7), (([], []), 0, 1000)] (by simp) (by simp)
  exact ⟨h1, cols1, h2, cols2, a1, b1, b2⟩

end Props
