import Verif.Spec.Build
import Verif.Lcio.BuildLemmas
/-
C57 (parents and daughters), C58 (track states), C59 (energy of simulated calorimeter hits).
-/
namespace Props
open Sio Spec Lcio

/-! ## C57 -/

theorem family_new (h : PHeap) (hn : NewParticles h) : Family h := by
  refine ⟨fun p q np nq hp hq => ?_, fun p np hp => ?_⟩
  · rw [(hn p np hp).1, (hn q nq hq).2]; rfl
  · rw [(hn p np hp).1]; exact List.nodup_nil

theorem family_setReadOnly (h : PHeap) (hf : Family h) (a : Nat) (n : PNode) (ha : h a = some n) (ro : Bool) :
    Family (h.set a { n with readOnly := ro }) := by
  have key : ∀ p np, h.set a { n with readOnly := ro } p = some np → ∃ np', h p = some np' ∧ np'.parents = np.parents ∧ np'.daughters = np.daughters := by
    intro p np hp
    unfold PHeap.set at hp
    split at hp
    · rename_i hpa; cases hp; exact ⟨n, hpa ▸ ha, rfl, rfl⟩
    · exact ⟨np, hp, rfl, rfl⟩
  refine ⟨fun p q np nq hp hq => ?_, fun p np hp => ?_⟩
  · obtain ⟨np', h1, h2, _⟩ := key p np hp
    obtain ⟨nq', h3, _, h4⟩ := key q nq hq
    rw [← h2, ← h4]; exact hf.1 p q np' nq' h1 h3
  · obtain ⟨np', h1, h2, _⟩ := key p np hp
    rw [← h2]; exact hf.2 p np' h1

theorem family_addParent (h : PHeap) (hf : Family h) (self parent : Nat)
    (hw : ∀ n m, h self = some n → h parent = some m → n.readOnly = false → m.readOnly = false) : Family (addParent h self parent).2 := by
  unfold addParent
  cases hs : h self with
  | none => exact hf
  | some n =>
    simp only
    by_cases hr' : n.readOnly = true
    · rw [if_pos hr']; exact hf
    · have hr : n.readOnly = false := by simpa using hr'
      rw [if_neg hr']
      by_cases hc : parent ∈ n.parents
      · rw [if_pos (by simpa using hc)]; exact hf
      · rw [if_neg (by simpa using hc)]
        cases hm : h parent with
        | none =>
          have hne : parent ≠ self := fun hh => by rw [hh, hs] at hm; cases hm
          have : h.set self { n with parents := n.parents ++ [parent] } parent = none := by simp [PHeap.set, hne, hm]
          simp only [this]
          refine ⟨fun p q np nq hp hq => ?_, fun p np hp => ?_⟩
          · have hq' : q ≠ parent := fun hh => by rw [hh, this] at hq; cases hq
            obtain ⟨nq', hq1, hq2⟩ : ∃ nq', h q = some nq' ∧ nq'.daughters = nq.daughters := by
              unfold PHeap.set at hq
              split at hq
              · rename_i hh; cases hq; exact ⟨n, hh ▸ hs, rfl⟩
              · exact ⟨nq, hq, rfl⟩
            rw [← hq2]
            unfold PHeap.set at hp
            split at hp
            · rename_i hh; subst hh; cases hp
              rw [List.count_append, ← hf.1 p q n nq' hs hq1]
              simp [Ne.symm hq']
            · exact hf.1 p q np nq' hp hq1
          · unfold PHeap.set at hp
            split at hp
            · rename_i hh; subst hh; cases hp
              have := hf.2 p n hs
              rw [List.nodup_append]
              exact ⟨this, by simp, fun a ha b hb => by rw [List.mem_singleton.1 hb]; exact fun hab => hc (hab ▸ ha)⟩
            · exact hf.2 p np hp
        | some m =>
          have hmw := hw n m hs hm hr
          -- the mother as it is after the parent was added
          obtain ⟨m', hm1, hm2, hm3, hm4⟩ : ∃ m', h.set self { n with parents := n.parents ++ [parent] } parent = some m' ∧
              m'.daughters = m.daughters ∧ ¬ m'.readOnly = true ∧ (parent ≠ self → m'.parents = m.parents) ∧ (parent = self → m'.parents = n.parents ++ [parent]) := by
            by_cases hh : parent = self
            · subst hh
              rw [hs] at hm; cases hm
              exact ⟨{ n with parents := n.parents ++ [parent] }, by simp [PHeap.set], rfl, hr', fun hh => (hh rfl).elim, fun _ => rfl⟩
            · exact ⟨m, by simp [PHeap.set, hh, hm], rfl, by simp [hmw], fun _ => rfl, fun hh' => (hh hh').elim⟩
          simp only [hm1, addDaughter]
          rw [if_neg hm3]
          -- what every particle looks like in the end
          have key : ∀ p np, ((h.set self { n with parents := n.parents ++ [parent] }).set parent { m' with daughters := m'.daughters ++ [self] }) p = some np →
              ∃ np', h p = some np' ∧ np.parents = (if p = self then np'.parents ++ [parent] else np'.parents) ∧
                np.daughters = (if p = parent then np'.daughters ++ [self] else np'.daughters) := by
            intro p np hp
            by_cases h1 : p = parent
            · have : np = { m' with daughters := m'.daughters ++ [self] } := by simpa [PHeap.set, h1] using hp.symm
              subst this
              refine ⟨m, h1 ▸ hm, ?_, by rw [if_pos h1, hm2]⟩
              by_cases h2 : p = self
              · rw [if_pos h2]
                have h3 := hm4.2 (h1 ▸ h2)
                simp only [h3]
                rw [← h1, h2, hs] at hm; cases hm; rfl
              · rw [if_neg h2]; exact hm4.1 fun hh => h2 (h1.trans hh)
            · by_cases h2 : p = self
              · subst h2
                have : np = { n with parents := n.parents ++ [parent] } := by simpa [PHeap.set, h1] using hp.symm
                subst this
                exact ⟨n, hs, by simp, by simp [h1]⟩
              · exact ⟨np, by simpa [PHeap.set, h1, h2] using hp, by simp [h2], by simp [h1]⟩
          refine ⟨fun p q np nq hp hq => ?_, fun p np hp => ?_⟩
          · obtain ⟨np', a1, a2, _⟩ := key p np hp
            obtain ⟨nq', b1, _, b2⟩ := key q nq hq
            have := hf.1 p q np' nq' a1 b1
            rw [a2, b2]
            by_cases c1 : p = self
            · by_cases c2 : q = parent
              · rw [if_pos c1, if_pos c2, List.count_append, List.count_append, this, c1, c2]; simp
              · rw [if_pos c1, if_neg c2, List.count_append, this]; simp [Ne.symm c2]
            · by_cases c2 : q = parent
              · rw [if_neg c1, if_pos c2, List.count_append, this]; simp [Ne.symm c1]
              · rw [if_neg c1, if_neg c2]; exact this
          · obtain ⟨np', a1, a2, _⟩ := key p np hp
            rw [a2]
            have := hf.2 p np' a1
            split
            · rename_i hh
              rw [hh, hs] at a1; cases a1
              rw [List.nodup_append]
              exact ⟨this, by simp, fun a ha b hb => by rw [List.mem_singleton.1 hb]; exact fun hab => hc (hab ▸ ha)⟩
            · exact this

theorem family_calls (cs : List ParticleCall) (h : PHeap) (hf : Family h) (hw : ParentsWritable h cs) : Family (particleCalls h cs) := by
  induction cs generalizing h with
  | nil => exact hf
  | cons c cs ih =>
    refine ih _ ?_ ?_
    · cases c with
      | addParent s p => exact family_addParent h hf s p fun n m h1 h2 => hw 0 s p n m rfl h1 h2
      | setReadOnly p ro =>
        simp only [particleCall]
        cases hp : h p with
        | none => exact hf
        | some n => exact family_setReadOnly h hf p n hp ro
    · intro i s p n m h1 h2 h3
      exact hw (i + 1) s p n m (by simpa using h1) h2 h3

/-- **C57**, if no parent is read-only when it is added to a particle that is not (`ParentsWritable`): after any sequence of calls on new particles,
every particle `p` lists `q` as parent exactly as often as `q` lists `p` as daughter, which is at most once. What is missing: read-only
parents (`C57_fails_for_read_only_parent`). -/
theorem C57_family_partial (h : PHeap) (hn : NewParticles h) (cs : List ParticleCall) (hw : ParentsWritable h cs) : Family (particleCalls h cs) :=
  family_calls cs h (family_new h hn) hw

/-- **C57**: adding the same parent once more has no effect. -/
theorem C57_twice (h : PHeap) (self parent : Nat) (hok : (addParent h self parent).1 = none) :
    addParent (addParent h self parent).2 self parent = (none, (addParent h self parent).2) := by
  have key : ∀ h' : PHeap, (∃ n, h' self = some n ∧ n.readOnly = false ∧ parent ∈ n.parents) → addParent h' self parent = (none, h') := by
    rintro h' ⟨n, h1, h2, h3⟩
    simp [addParent, h1, h2, h3]
  apply key
  unfold addParent at hok ⊢
  cases hs : h self with
  | none => rw [hs] at hok; cases hok
  | some n =>
    simp only [hs] at hok ⊢
    by_cases hr : n.readOnly = true
    · rw [if_pos hr] at hok; cases hok
    · rw [if_neg hr] at hok ⊢
      have hr' : n.readOnly = false := by simpa using hr
      by_cases hc : n.parents.contains parent = true
      · rw [if_pos hc]; exact ⟨n, hs, hr', by simpa using hc⟩
      · rw [if_neg hc] at hok ⊢
        by_cases hp : parent = self
        · subst hp
          have h1 : h.set parent { n with parents := n.parents ++ [parent] } parent = some { n with parents := n.parents ++ [parent] } := by simp [PHeap.set]
          simp only [h1, addDaughter]
          rw [if_neg hr]
          exact ⟨{ n with parents := n.parents ++ [parent], daughters := n.daughters ++ [parent] }, by simp [PHeap.set], hr', by simp⟩
        · have h1 : h.set self { n with parents := n.parents ++ [parent] } self = some { n with parents := n.parents ++ [parent] } := by simp [PHeap.set]
          cases hm : h.set self { n with parents := n.parents ++ [parent] } parent with
          | none => exact ⟨_, h1, hr', by simp⟩
          | some m =>
            simp only [addDaughter]
            split
            · exact ⟨_, h1, hr', by simp⟩
            · refine ⟨{ n with parents := n.parents ++ [parent] }, ?_, hr', by simp⟩
              rw [← h1]
              simp [PHeap.set, Ne.symm hp]

/-- **C57** fails for a read-only parent: the exception comes after the particle has listed the parent, so the parent never lists it as daughter,
not even if it is added again after it was made writable. -/
theorem C57_fails_for_read_only_parent :
    let h : PHeap := fun a => if a = 1 ∨ a = 2 then some {} else none
    let cs : List ParticleCall := [.setReadOnly 2 true, .addParent 1 2, .setReadOnly 2 false, .addParent 1 2]
    NewParticles h ∧ particleCalls h cs 1 = some { parents := [2] } ∧ particleCalls h cs 2 = some { daughters := [] } := by
  refine ⟨?_, rfl, rfl⟩
  intro p n hp
  simp only at hp
  split at hp
  · cases hp; exact ⟨rfl, rfl⟩
  · cases hp

/-- Two particles with a common mother, one of which has a father as well, an access mode that changes in between, and a parent added twice. -/
example : particleCalls (fun a => if 1 ≤ a ∧ a ≤ 4 then some {} else none) [.addParent 1 3, .addParent 2 3, .addParent 1 4, .addParent 1 3] 3 =
    some { daughters := [1, 2] } := rfl

/-- Particles that are all writable: the hypothesis of `C57_family_partial` holds whatever parents are added. -/
theorem writable_parents (cs : List ParticleCall) (hcs : ∀ c ∈ cs, ∃ s p, c = .addParent s p) (h : PHeap) (hw : ∀ p n, h p = some n → n.readOnly = false) :
    ParentsWritable h cs := by
  have step : ∀ (cs : List ParticleCall) (h : PHeap), (∀ c ∈ cs, ∃ s p, c = .addParent s p) → (∀ p n, h p = some n → n.readOnly = false) →
      ∀ p n, particleCalls h cs p = some n → n.readOnly = false := by
    intro cs
    induction cs with
    | nil => intro h _ hw; exact hw
    | cons c cs ih =>
      intro h hcs hw
      refine ih _ (fun c hc => hcs c (by simp [hc])) ?_
      obtain ⟨s, p, rfl⟩ := hcs c (by simp)
      simp only [particleCall, addParent]
      cases hs : h s with
      | none => exact hw
      | some n =>
        have hn := hw s n hs
        simp only [hn, Bool.false_eq_true, ↓reduceIte]
        split
        · exact hw
        · have h1 : ∀ q m, h.set s { n with parents := n.parents ++ [p] } q = some m → m.readOnly = false := by
            intro q m hq
            unfold PHeap.set at hq
            split at hq
            · cases hq; exact hn
            · exact hw q m hq
          rw [hn] at h1
          split
          · exact h1
          · rename_i m hm
            have hmr := h1 _ _ hm
            simp only [addDaughter, hmr, Bool.false_eq_true, ↓reduceIte]
            intro q m' hq
            unfold PHeap.set at hq
            split at hq
            · cases hq; rfl
            · exact h1 q m' hq
  intro i s p n m _ _ h3 _
  exact step _ _ (fun c hc => hcs c (List.mem_of_mem_take hc)) hw p m h3

/-! ## C58 -/

/-- What holds of the states of a track after calls that add states. -/
structure TrackOk (t : TrackObj) (added : Nat → W32 → Prop) : Prop where
  unique : t.states.Pairwise fun a b => a.2.location = b.2.location → a.2.location = 0
  real : ∀ s ∈ t.states, s.1 ≠ 0
  found : ∀ a l, l ≠ 0 → ((∃ s ∈ t.states, s.1 = a ∧ s.2.location = l) ↔ added a l)

theorem getTrackState_eq (t : TrackObj) (hr : ∀ s ∈ t.states, s.1 ≠ 0) (l : W32) : t.getTrackState l = 0 ↔ ∀ s ∈ t.states, s.2.location ≠ l := by
  unfold TrackObj.getTrackState
  cases hf : t.states.find? fun s => s.2.location == l with
  | none =>
    simp only [true_iff]
    intro s hs
    have := List.find?_eq_none.1 hf s hs
    simpa using this
  | some s =>
    simp only
    have h1 := List.mem_of_find?_eq_some hf
    have h2 := List.find?_some hf
    constructor
    · intro h; exact (hr s h1 h).elim
    · intro h; exact (h s h1 (by simpa using h2)).elim

theorem track_call (t : TrackObj) (added : Nat → W32 → Prop) (h : TrackOk t added) (c : TrackCall) (hc : AddingCall c) :
    TrackOk (t.call c).2 fun a l => added a l ∨ ∃ s, c = .add a s ∧ (t.call c).1 = none ∧ s.location = l := by
  cases c with
  | add a s =>
    simp only [TrackObj.call, TrackObj.addTrackState]
    by_cases h1 : t.readOnly = true
    · rw [if_pos h1]
      exact ⟨h.unique, h.real, fun b l hl => by rw [h.found b l hl]; simp⟩
    · rw [if_neg h1]
      by_cases h0 : a = 0
      · rw [if_pos h0]
        exact ⟨h.unique, h.real, fun b l hl => by rw [h.found b l hl]; simp⟩
      · rw [if_neg h0]
        by_cases h2 : s.location ≠ 0 ∧ t.getTrackState s.location ≠ 0
        · rw [if_pos h2]
          exact ⟨h.unique, h.real, fun b l hl => by rw [h.found b l hl]; simp⟩
        · rw [if_neg h2]
          refine ⟨?_, ?_, ?_⟩
          · simp only
            rw [List.pairwise_append]
            refine ⟨h.unique, by simp, ?_⟩
            intro x hx y hy hxy
            rw [List.mem_singleton.1 hy] at hxy
            by_cases h3 : s.location = 0
            · rw [hxy]; exact h3
            · exfalso
              have h4 : t.getTrackState s.location = 0 := by
                by_cases h5 : t.getTrackState s.location = 0
                · exact h5
                · exact (h2 ⟨h3, h5⟩).elim
              exact (getTrackState_eq t h.real s.location).1 h4 x hx hxy
          · intro x hx
            rcases List.mem_append.1 hx with hx | hx
            · exact h.real x hx
            · rw [List.mem_singleton.1 hx]; exact h0
          · intro b l hl
            rw [← h.found b l hl]
            simp only [List.mem_append, List.mem_singleton, TrackCall.add.injEq]
            constructor
            · rintro ⟨x, hx | hx, hxa, hxl⟩
              · exact .inl ⟨x, hx, hxa, hxl⟩
              · subst hx; exact .inr ⟨s, ⟨hxa, rfl⟩, trivial, hxl⟩
            · rintro (⟨x, hx, hxa, hxl⟩ | ⟨s', ⟨rfl, rfl⟩, _, hsl⟩)
              · exact ⟨x, .inl hx, hxa, hxl⟩
              · exact ⟨_, .inr rfl, rfl, hsl⟩
  | setFirst a f =>
    have hloc : ∀ s, (f.set s).location = s.location := by intro s; cases f <;> rfl
    simp only [TrackObj.call, TrackObj.setFirst]
    have hno : ∀ (r : Option Err) b l, (added b l ∨ ∃ s, TrackCall.setFirst a f = .add b s ∧ r = none ∧ s.location = l) ↔ added b l := by
      intro r b l; simp
    rcases hst : t.states with _ | ⟨s, _ | ⟨s', l'⟩⟩
    · refine ⟨by simp, by simp [show a ≠ 0 from hc], ?_⟩
      intro b l hl
      rw [hno, ← h.found b l hl, hst]
      constructor
      · rintro ⟨x, hx, hxa, hxl⟩
        rw [List.mem_singleton.1 hx] at hxl
        simp only [hloc] at hxl
        exact (hl hxl.symm).elim
      · rintro ⟨x, hx, _⟩; simp at hx
    · refine ⟨by simp, ?_, ?_⟩
      · intro x hx
        rw [List.mem_singleton.1 hx]
        exact h.real s (by rw [hst]; simp)
      · intro b l hl
        rw [hno, ← h.found b l hl, hst]
        simp only [List.mem_singleton, exists_eq_left, hloc]
    · simp only
      exact ⟨h.unique, h.real, fun b l hl => by rw [hno, h.found b l hl]⟩
  | setReadOnly ro =>
    simp only [TrackObj.call]
    exact ⟨h.unique, h.real, fun b l hl => by rw [h.found b l hl]; simp⟩
  | setLocation a l => exact hc.elim
  | assign o n => exact hc.elim

theorem track_calls (cs : List TrackCall) (t : TrackObj) (added : Nat → W32 → Prop) (h : TrackOk t added) (hc : ∀ c ∈ cs, AddingCall c) :
    TrackOk (t.calls cs).2 fun a l => added a l ∨ AddedAt cs (t.calls cs).1 a l := by
  induction cs generalizing t added with
  | nil => exact ⟨h.unique, h.real, fun b l hl => by simp only [TrackObj.calls]; rw [h.found b l hl]; simp [AddedAt]⟩
  | cons c cs ih =>
    have h1 := track_call t added h c (hc c (by simp))
    have h2 := ih _ _ h1 fun c hh => hc c (by simp [hh])
    refine ⟨h2.unique, h2.real, fun b l hl => ?_⟩
    simp only [TrackObj.calls]
    rw [h2.found b l hl]
    unfold AddedAt
    constructor
    · rintro ((h | ⟨s, h1, h2, h3⟩) | ⟨i, s, h1, h2, h3⟩)
      · exact .inl h
      · exact .inr ⟨0, s, by simp [h1], by simp [h2], h3⟩
      · exact .inr ⟨i + 1, s, by simpa using h1, by simpa using h2, h3⟩
    · rintro (h | ⟨i, s, h1, h2, h3⟩)
      · exact .inl (.inl h)
      · cases i with
        | zero => exact .inl (.inr ⟨s, by simpa using h1, by simpa using h2, h3⟩)
        | succ i => exact .inr ⟨i, s, by simpa using h1, by simpa using h2, h3⟩

/-- **C58**, for calls that add track states, use the setters of the track, or change the access mode: a new track never gets two states with the
same location other than `AtOther` (0); `getTrackState` of a location finds exactly the state that was added for it, and null if there is
none. What is missing: changing the location of a state of the track (`C58_fails_for_setLocation`) and assigning a track to
another (`C58_fails_for_assignment`). -/
theorem C58_unique_partial (cs : List TrackCall) (hc : ∀ c ∈ cs, AddingCall c) :
    (TrackObj.calls {} cs).2.states.Pairwise (fun a b => a.2.location = b.2.location → a.2.location = 0) ∧
    ∀ l ≠ 0, (∀ a ≠ 0, (TrackObj.calls {} cs).2.getTrackState l = a ↔ AddedAt cs (TrackObj.calls {} cs).1 a l) ∧
      ((TrackObj.calls {} cs).2.getTrackState l = 0 ↔ ∀ a, ¬ AddedAt cs (TrackObj.calls {} cs).1 a l) := by
  have h := track_calls cs {} (fun _ _ => False) ⟨List.Pairwise.nil, by simp, by simp⟩ hc
  simp only [false_or] at h
  refine ⟨h.unique, fun l hl => ⟨fun a ha => ?_, ?_⟩⟩
  · rw [← h.found a l hl]
    constructor
    · intro hg
      unfold TrackObj.getTrackState at hg
      cases hf : (TrackObj.calls {} cs).2.states.find? fun s => s.2.location == l with
      | none => rw [hf] at hg; exact (ha hg.symm).elim
      | some s =>
        rw [hf] at hg
        have h2 := List.find?_some hf
        exact ⟨s, List.mem_of_find?_eq_some hf, hg, by simpa using h2⟩
    · rintro ⟨s, hs, hsa, hsl⟩
      unfold TrackObj.getTrackState
      cases hf : (TrackObj.calls {} cs).2.states.find? fun s => s.2.location == l with
      | none =>
        have := List.find?_eq_none.1 hf s hs
        simp [hsl] at this
      | some s' =>
        have h1 := List.mem_of_find?_eq_some hf
        have h2 : s'.2.location = l := by simpa using List.find?_some hf
        simp only
        by_cases hss : s' = s
        · rw [hss]; exact hsa
        · exfalso
          have hsym : ∀ x ∈ (TrackObj.calls {} cs).2.states, ∀ y ∈ (TrackObj.calls {} cs).2.states, x ≠ y → x.2.location = y.2.location → x.2.location = 0 := by
            refine List.Pairwise.forall_of_forall_of_flip ?_ ?_ ?_
            · intro x _ hxx; exact (hxx rfl).elim
            · refine h.unique.imp ?_
              intro a b hh _; exact hh
            · refine h.unique.imp ?_
              intro a b hh _ hh2; exact hh2.trans (hh hh2.symm)
          exact hl (h2 ▸ hsym s' h1 s hs hss (h2.trans hsl.symm))
  · rw [getTrackState_eq _ h.real]
    constructor
    · intro hh a ha
      obtain ⟨s, hs, _, hsl⟩ := (h.found a l hl).2 ha
      exact hh s hs hsl
    · intro hh s hs hsl
      exact hh s.1 ((h.found s.1 l hl).1 ⟨s, hs, rfl, hsl⟩)

/-- **C58** fails if the location of a state is changed after it was added: the track has two states at location 1, and only the first can be found. -/
theorem C58_fails_for_setLocation :
    let t := TrackObj.calls {} [.add 7 { location := 1 }, .add 8 { location := 2 }, .setLocation 8 1]
    t.1 = [none, none, none] ∧ t.2.states.map (fun s => (s.1, s.2.location)) = [(7, 1), (8, 1)] ∧ t.2.getTrackState 1 = 7 := by decide +kernel

/-- **C58** fails for the assignment of tracks, which adds the states of the other track to those the track has. -/
theorem C58_fails_for_assignment :
    let t := TrackObj.calls {} [.add 7 { location := 1 }, .assign { states := [(9, { location := 1, d0 := 5 })] } 10]
    t.2.states.map (fun s => (s.1, s.2.location)) = [(7, 1), (10, 1)] ∧ t.2.getTrackState 1 = 7 := by decide +kernel

/-- Adding states: a second one at the same location is refused, a second one at `AtOther` is not; the setters of the track throw when it has more
than one state. -/
example : (TrackObj.calls {} [.setFirst 5 (.d0 1), .setFirst 6 (.phi 2), .add 7 { location := 1 }, .add 8 { location := 1 }, .add 9 {}, .setFirst 10 (.d0 3)]).1 =
    [none, none, none, some .lcException, none, some .lcException] := by decide +kernel

/-! ## C59 -/

/-- **C59**: after any sequence of calls the energy of a hit is what one gets by adding the energies in the order of the calls to the energy it had, or to
the one that `setEnergy` has set in between. This holds for any addition, so also for the one of `float`s with its rounding. -/
theorem C59_energy (add : W32 → W32 → W32) (h : SimCalHit) (cs : List HitCall) :
    (h.calls add cs).energy = cs.foldl (fun e c => match c with
      | .setEnergy en => en
      | .addShort _ en _ => add e en
      | .addLong _ en _ _ _ _ => add e en) h.energy := by
  unfold SimCalHit.calls
  induction cs generalizing h with
  | nil => rfl
  | cons c cs ih =>
    rw [List.foldl_cons, List.foldl_cons, ih]
    congr 1
    cases c with
    | addShort p en t => simp only [SimCalHit.call, SimCalHit.addShort]; split <;> rfl
    | addLong p en t l pdg s => rfl
    | setEnergy en => rfl

/-- **C59**: if only calls with three arguments are used on a new hit, it has one contribution per particle, in the order in which the particles appear; its
energy is the sum, in order, of what was added for the particle, and its time is the one given first. This holds for any addition. -/
theorem C59_per_particle (add : W32 → W32 → W32) (cs : List HitCall) (hc : ∀ c ∈ cs, ∃ p en t, c = .addShort p en t) :
    (SimCalHit.calls add {} cs).conts = (inOrder (cs.filterMap fun c => match c with | .addShort p _ _ => some p | _ => none)).map (fun p =>
      match addedFor p cs with
      | (en, t) :: rest => ({ particle := p, energy := (rest.map (·.1)).foldl add en, time := t } : SimCont)
      | [] => { particle := p }) := by
  let g : List HitCall → Nat → SimCont := fun cs p => match addedFor p cs with
      | (en, t) :: rest => ({ particle := p, energy := (rest.map (·.1)).foldl add en, time := t } : SimCont)
      | [] => { particle := p }
  let ps : List HitCall → List Nat := fun cs => cs.filterMap fun c => match c with | .addShort p _ _ => some p | _ => none
  show _ = (inOrder (ps cs)).map (g cs)
  induction cs using List.reverseRecOn with
  | nil => rfl
  | append_singleton cs c ih =>
    have ih := ih fun c h => hc c (List.mem_append_left _ h)
    obtain ⟨p, en, t, rfl⟩ := hc c (List.mem_append_right _ List.mem_cons_self)
    have hcalls : SimCalHit.calls add {} (cs ++ [.addShort p en t]) = (SimCalHit.calls add {} cs).addShort add p en t := by
      unfold SimCalHit.calls; rw [List.foldl_append]; rfl
    have hps : ps (cs ++ [.addShort p en t]) = ps cs ++ [p] := by simp only [ps, List.filterMap_append]; rfl
    have hadd : ∀ q, addedFor q (cs ++ [.addShort p en t]) = if p = q then addedFor q cs ++ [(en, t)] else addedFor q cs := by
      intro q
      unfold addedFor
      rw [List.filterMap_append]
      by_cases h : p = q
      · rw [if_pos h]; simp only [List.filterMap_cons, List.filterMap_nil, h, ↓reduceIte]
      · rw [if_neg h]; simp only [List.filterMap_cons, List.filterMap_nil, h, ↓reduceIte, List.append_nil]
    have hg : ∀ q, (g cs q).particle = q := by
      intro q; simp only [g]; split <;> rfl
    have hmem : p ∈ ps cs ↔ addedFor p cs ≠ [] := by
      constructor
      · intro h e
        obtain ⟨c, hcm, hcp⟩ := List.mem_filterMap.1 h
        cases c with
        | addShort q en' t' =>
          injection hcp with hcp
          have : (en', t') ∈ addedFor p cs := List.mem_filterMap.2 ⟨_, hcm, by simp only [hcp, ↓reduceIte]⟩
          rw [e] at this; exact absurd this List.not_mem_nil
        | addLong => cases hcp
        | setEnergy => cases hcp
      · intro h
        obtain ⟨x, hx⟩ := List.exists_mem_of_ne_nil _ h
        obtain ⟨c, hcm, hcp⟩ := List.mem_filterMap.1 hx
        cases c with
        | addShort q en' t' =>
          simp only at hcp
          split at hcp
          · rename_i hq
            exact List.mem_filterMap.2 ⟨_, hcm, by simp only [hq]⟩
          · cases hcp
        | addLong => cases hcp
        | setEnergy => cases hcp
    rw [hcalls, hps, inOrder_snoc]
    have hA := addToParticle_map add p en (g cs) hg _ (nodup_inOrder (ps cs))
    rw [← ih] at hA
    unfold SimCalHit.addShort
    simp only [hA, mem_inOrder]
    have hother : ∀ q, q ≠ p → g (cs ++ [.addShort p en t]) q = g cs q := by
      intro q hq
      simp only [g, hadd, if_neg (Ne.symm hq)]
    by_cases h : p ∈ ps cs
    · rw [if_pos h, if_pos h]
      simp only
      apply List.map_congr_left
      intro q _
      by_cases hq : q = p
      · subst hq
        rw [if_pos rfl]
        simp only [g, hadd, if_true]
        cases e : addedFor q cs with
        | nil => exact absurd e (hmem.1 h)
        | cons x xs => simp only [List.cons_append, List.map_append, List.foldl_append, List.map_cons, List.map_nil, List.foldl_cons, List.foldl_nil]
      · rw [if_neg hq, hother q hq]
    · rw [if_neg h, if_neg h]
      simp only [List.map_append, List.map_cons, List.map_nil]
      congr 1
      · rw [ih]
        apply List.map_congr_left
        intro q hq
        rw [hother q]
        rintro rfl
        exact h ((mem_inOrder _ _).1 hq)
      · have e : addedFor p cs = [] := by
          by_contra e; exact h (hmem.2 e)
        simp only [g, hadd, if_true, e, List.nil_append, List.map_nil, List.foldl_nil]

/-- **C59**, for energies whose sums are exact: if all energies are finite numbers that are multiples of some power of two (at least 2^-149, the unit) and the sum of their magnitudes is less than
2^24 times that power, then the energy of the hit and the sum of its contributions are both exactly the sum of the energies added. Here
`fVal` is the value in units of 2^-149 and `fMag` its magnitude. What is missing: energies whose sums are rounded (`C59_fails_by_rounding`). -/
theorem C59_sum_partial (k : Nat) (hk : k ≤ 253) (cs : List HitCall) (hset : ∀ en, .setEnergy en ∉ cs)
    (hen : ∀ c ∈ cs, ∀ en, addedEnergy c = some en → finite en ∧ (2 ^ k : Int) ∣ fVal en)
    (hsum : ((cs.filterMap addedEnergy).map fMag).sum < 2 ^ (24 + k)) :
    fVal (SimCalHit.calls ieeeAdd {} cs).energy = ((cs.filterMap addedEnergy).map fVal).sum ∧
    ((SimCalHit.calls ieeeAdd {} cs).conts.map fun c => fVal c.energy).sum = ((cs.filterMap addedEnergy).map fVal).sum := by
  have main : ∀ (cs : List HitCall) (h : SimCalHit) (used : Nat), (∀ en, .setEnergy en ∉ cs) →
      (∀ c ∈ cs, ∀ en, addedEnergy c = some en → finite en ∧ (2 ^ k : Int) ∣ fVal en) →
      finite h.energy → (2 ^ k : Int) ∣ fVal h.energy → fMag h.energy ≤ used → (∀ c ∈ h.conts, finite c.energy ∧ (2 ^ k : Int) ∣ fVal c.energy) →
      (h.conts.map fun c => fVal c.energy).sum = fVal h.energy → (h.conts.map fun c => fMag c.energy).sum ≤ used →
      used + ((cs.filterMap addedEnergy).map fMag).sum < 2 ^ (24 + k) →
      fVal (h.calls ieeeAdd cs).energy = fVal h.energy + ((cs.filterMap addedEnergy).map fVal).sum ∧
      ((h.calls ieeeAdd cs).conts.map fun c => fVal c.energy).sum = fVal h.energy + ((cs.filterMap addedEnergy).map fVal).sum := by
    intro cs
    induction cs with
    | nil => intro h _ _ _ _ _ _ _ h5 _ _; exact ⟨by simp [SimCalHit.calls], by simp [SimCalHit.calls, h5]⟩
    | cons c cs ih =>
      intro h used hset hen h1 h2 hm h3 h4 hms h5
      have hset' : ∀ en, .setEnergy en ∉ cs := fun en hm => hset en (List.mem_cons_of_mem _ hm)
      have hen' := fun d hd => hen d (List.mem_cons_of_mem _ hd)
      have hc := hen c List.mem_cons_self
      obtain ⟨en, he⟩ : ∃ en, addedEnergy c = some en := by
        cases c with
        | addShort p en t => exact ⟨en, rfl⟩
        | addLong p en t l pdg s => exact ⟨en, rfl⟩
        | setEnergy en => exact absurd List.mem_cons_self (hset en)
      obtain ⟨n1, n2⟩ := hc en he
      rw [List.filterMap_cons_some he, List.map_cons, List.sum_cons] at h5
      rw [List.filterMap_cons_some he, List.map_cons, List.sum_cons]
      have m1 := fVal_abs h.energy
      have m2 := fVal_abs en
      obtain ⟨s1, s2⟩ := ieeeAdd_signed k hk h.energy en h1 n1 h2 n2 (by omega)
      have m3 := fVal_abs (ieeeAdd h.energy en)
      have step : (h.call ieeeAdd c).energy = ieeeAdd h.energy en ∧
          (∀ d ∈ (h.call ieeeAdd c).conts, finite d.energy ∧ (2 ^ k : Int) ∣ fVal d.energy) ∧
          ((h.call ieeeAdd c).conts.map fun d => fVal d.energy).sum = fVal h.energy + fVal en ∧
          ((h.call ieeeAdd c).conts.map fun d => fMag d.energy).sum ≤ used + fMag en := by
        have happ : ∀ d : SimCont, d.energy = en → (∀ d' ∈ h.conts ++ [d], finite d'.energy ∧ (2 ^ k : Int) ∣ fVal d'.energy) ∧
            ((h.conts ++ [d]).map fun d' => fVal d'.energy).sum = fVal h.energy + fVal en ∧
            ((h.conts ++ [d]).map fun d' => fMag d'.energy).sum ≤ used + fMag en := by
          intro d hd
          refine ⟨?_, ?_, ?_⟩
          · intro d' hd'
            rcases List.mem_append.1 hd' with hd' | hd'
            · exact h3 d' hd'
            · rw [List.mem_singleton.1 hd', hd]; exact ⟨n1, n2⟩
          · simp [h4, hd]
          · simp [hd, hms]
        cases c with
        | addShort p en' t =>
          injection he with he
          subst he
          simp only [SimCalHit.call, SimCalHit.addShort]
          cases e : addToParticle ieeeAdd p en' h.conts with
          | none => exact ⟨rfl, happ _ rfl⟩
          | some cs' =>
            obtain ⟨a1, a2, a3⟩ := addToParticle_signed k hk p en' n1 n2 h.conts h3 (by omega) cs' e
            exact ⟨rfl, a1, by rw [← h4]; exact a2, by simp only; omega⟩
        | addLong p en' t l pdg s =>
          injection he with he
          subst he
          exact ⟨rfl, happ _ rfl⟩
        | setEnergy en' => cases he
      obtain ⟨t1, t2, t3, t4⟩ := step
      have := ih (h.call ieeeAdd c) (used + fMag en) hset' hen' (by rw [t1]; exact s2) (by rw [t1, s1]; exact Int.dvd_add h2 n2) (by rw [t1]; omega) t2
        (by rw [t1, s1, t3]) t4 (by omega)
      rw [t1, s1, Int.add_assoc] at this
      exact this
  have hz : fVal 0 = 0 := by decide
  have := main cs {} 0 hset hen (by show finite 0; unfold finite; decide) (by show (2 ^ k : Int) ∣ fVal 0; rw [hz]; exact Int.dvd_zero _) (by decide)
    (fun c hc => absurd hc List.not_mem_nil) hz.symm (Nat.le_refl _) (by omega)
  rwa [show fVal ({} : SimCalHit).energy = 0 from hz, Int.zero_add] at this

/-- A case: energies of 0.5, 1.25 and 0.25 GeV, and a correction by -1 GeV, are multiples of 2^-2 GeV, which is 2^147 units; the total is 1. -/
def stepCalls : List HitCall := [.addShort 1 0x3f000000 0x40000000, .addLong 2 0x3fa00000 0 0 22 none, .addShort 1 0x3e800000 0x40400000, .addShort 1 0xbf800000 0]

example : (∀ c ∈ stepCalls, ∀ en, addedEnergy c = some en → finite en ∧ (2 ^ 147 : Int) ∣ fVal en) ∧
    ((stepCalls.filterMap addedEnergy).map fMag).sum < 2 ^ (24 + 147) ∧ (SimCalHit.calls ieeeAdd {} stepCalls).energy = 0x3f800000 ∧
    (SimCalHit.calls ieeeAdd {} stepCalls).conts.map (·.energy) = [0xbe800000, 0x3fa00000] := by
  refine ⟨?_, by decide +kernel, by decide +kernel, by decide +kernel⟩
  intro c hc en he
  simp only [stepCalls, List.mem_cons, List.not_mem_nil, or_false] at hc
  rcases hc with rfl | rfl | rfl | rfl <;> (injection he with he; subst he; unfold finite; decide +kernel)

/-- **C59** fails if sums are rounded: after adding 16777216, 1 and 1 GeV the hit has an energy of 16777216 GeV, but its contributions are 16777216 and 2. -/
theorem C59_fails_by_rounding :
    let h := SimCalHit.calls ieeeAdd {} [.addShort 1 0x4b800000 0, .addShort 2 0x3f800000 0, .addShort 2 0x3f800000 0]
    h.energy = 0x4b800000 ∧ h.conts.map (·.energy) = [0x4b800000, 0x40000000] ∧ ieeeAdd 0x4b800000 0x40000000 = 0x4b800001 := by decide +kernel

end Props
