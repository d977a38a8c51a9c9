import Verif.Util.StdHepLemmas2
/-
Lemmas about making collections of StdHep events.
-/
namespace Util
open Sio Spec Lcio

/-! ## Elements of the arrays -/

theorem chunk_get {α β : Type} (k : Nat) (f : α → List β) (hf : ∀ a, (f a).length = k) : ∀ (l : List α) (i j : Nat), j < k →
    (l.flatMap f)[i * k + j]? = l[i]?.bind fun a => (f a)[j]? := by
  intro l
  induction l with
  | nil => intro i j _; simp
  | cons a l ih =>
    intro i j hj
    rw [List.flatMap_cons]
    cases i with
    | zero => rw [List.getElem?_append_left (by rw [hf]; omega)]; simp
    | succ i =>
      have e : (i + 1) * k + j = k + (i * k + j) := by rw [Nat.succ_mul]; omega
      rw [e, List.getElem?_append_right (by rw [hf]; omega), hf, Nat.add_sub_cancel_left, ih i j hj, List.getElem?_cons_succ]

theorem element_chunk {α β : Type} (k : Nat) (f : α → List β) (hf : ∀ a, (f a).length = k) (l : List α) (i j : Nat) (hj : j < k) (a : α) (b : β)
    (ha : l[i]? = some a) (hb : (f a)[j]? = some b) : element (some (l.flatMap f)) (i * k + j) = .ok b := by
  unfold element
  show (match (l.flatMap f)[i * k + j]? with | none => _ | some v => _) = _
  rw [chunk_get k f hf l i j hj, ha]
  show (match (f a)[j]? with | none => _ | some v => _) = _
  rw [hb]

theorem element_map {α β : Type} (f : α → β) (l : List α) (i : Nat) (a : α) (ha : l[i]? = some a) : element (some (l.map f)) i = .ok (f a) := by
  unfold element
  show (match (l.map f)[i]? with | none => _ | some v => _) = _
  rw [List.getElem?_map, ha]; rfl

theorem mapM_range {β : Type} (f : Nat → Except Err β) (l : List β) (h : ∀ (i : Nat) b, l[i]? = some b → f i = .ok b) :
    (List.range l.length).mapM f = .ok l := by
  have key : ∀ (m : List β) (off : Nat), (∀ (i : Nat) b, m[i]? = some b → f (off + i) = .ok b) → (List.range' off m.length).mapM f = .ok m := by
    intro m
    induction m with
    | nil => intro off _; rfl
    | cons b m ih =>
      intro off hm
      rw [List.length_cons, List.range'_succ, List.mapM_cons, show f off = .ok b from hm 0 b rfl]
      have := ih (off + 1) fun i c hc => by rw [Nat.add_right_comm]; exact hm (i + 1) c hc
      show (do let r ← (List.range' (off + 1) m.length).mapM f; pure (b :: r)) = _
      rw [this]; rfl
  rw [List.range_eq_range']
  exact key l 0 fun i b hb => by rw [Nat.zero_add]; exact h i b hb

theorem track_eq (ev : LEvent) (e : HepEvent) (h : EventIs ev e) (i : Nat) (t : LTrack) (ht : e.tracks[i]? = some t) : ev.track i = .ok t := by
  unfold LEvent.track
  rw [h.vertex, h.momentum, h.pid, h.status, h.mothers, h.daughters]
  have e2 : i + i = i * 2 := by omega
  rw [e2]
  have hv := fun j b hj hb => element_chunk 4 (fun t : LTrack => [t.x, t.y, t.z, t.t]) (fun _ => rfl) e.tracks i j hj t b ht hb
  have hp := fun j b hj hb => element_chunk 5 (fun t : LTrack => [t.px, t.py, t.pz, t.e, t.m]) (fun _ => rfl) e.tracks i j hj t b ht hb
  have hm := fun j b hj hb => element_chunk 2 (fun t : LTrack => [t.mother1, t.mother2]) (fun _ => rfl) e.tracks i j hj t b ht hb
  have hd := fun j b hj hb => element_chunk 2 (fun t : LTrack => [t.daughter1, t.daughter2]) (fun _ => rfl) e.tracks i j hj t b ht hb
  rw [hv 0 t.x (by decide) rfl, hv 1 t.y (by decide) rfl, hv 2 t.z (by decide) rfl, hv 3 t.t (by decide) rfl,
    hp 0 t.px (by decide) rfl, hp 1 t.py (by decide) rfl, hp 2 t.pz (by decide) rfl, hp 3 t.e (by decide) rfl, hp 4 t.m (by decide) rfl,
    element_map _ _ _ t ht, element_map _ _ _ t ht, hm 0 t.mother1 (by decide) rfl, hm 1 t.mother2 (by decide) rfl,
    hd 0 t.daughter1 (by decide) rfl, hd 1 t.daughter2 (by decide) rfl]
  rfl

theorem getEvent_eq (s : LStdHep) (e : HepEvent) (h : EventIs s.event e) (he : s.x.err = 0) : s.getEvent = .ok (0, some (e.number, e.tracks)) := by
  unfold LStdHep.getEvent
  rw [if_neg (by simp [he]), h.n, Int.toNat_natCast, mapM_range s.event.track e.tracks fun i t ht => track_eq _ e h i t ht, h.number]
  rfl

/-! ## Particles -/

theorem hepParticle_eq (ar : HepArith) (ev : LEvent) (e : HepEvent) (h : EventIs ev e) (hu : Usable e) (i : Nat) (t : LTrack) (ht : e.tracks[i]? = some t) :
    ∃ p, hepParticle ar ev i = .ok p ∧ SameParticle ar t p ∧ (e.ev4 = none → p.spin = [0, 0, 0] ∧ p.colorFlow = [0, 0]) ∧
      ∀ v s cf, e.ev4 = some v → v.spins[i]? = some s → v.colors[i]? = some cf → p.spin = [s.1, s.2.1, s.2.2].map ar.narrow ∧ p.colorFlow = [cf.1, cf.2] := by
  obtain ⟨c, hc⟩ := hu.charges t (List.mem_of_getElem? ht)
  have hv := fun j b hj hb => element_chunk 4 (fun t : LTrack => [t.x, t.y, t.z, t.t]) (fun _ => rfl) e.tracks i j hj t b ht hb
  have hp := fun j b hj hb => element_chunk 5 (fun t : LTrack => [t.px, t.py, t.pz, t.e, t.m]) (fun _ => rfl) e.tracks i j hj t b ht hb
  unfold hepParticle
  rw [h.vertex, h.momentum, h.pid, h.status, hv 0 t.x (by decide) rfl, hv 1 t.y (by decide) rfl, hv 2 t.z (by decide) rfl, hv 3 t.t (by decide) rfl,
    hp 0 t.px (by decide) rfl, hp 1 t.py (by decide) rfl, hp 2 t.pz (by decide) rfl, hp 4 t.m (by decide) rfl,
    element_map _ _ _ t ht, element_map _ _ _ t ht, h.scale, h.spin, h.color]
  cases h4 : e.ev4 with
  | none =>
    refine ⟨{ pdg := t.pid, charge3 := c, momentum := [t.px, t.py, t.pz].map fun c => ar.widen (ar.narrow c), mass := ar.widen (ar.narrow t.m),
              vertex := [t.x, t.y, t.z], genStatus := t.status, time := ar.narrow (ar.overLight t.t) }, ?_, ⟨rfl, hc, rfl, rfl, rfl, rfl, rfl⟩, fun _ => ⟨rfl, rfl⟩,
      fun v s cf h => by cases h⟩
    show (threeCharge t.pid >>= _) = _
    rw [hc]; rfl
  | some v =>
    obtain ⟨hs, hcl⟩ := hu.spins v h4
    have hi : i < e.tracks.length := by
      rcases Nat.lt_or_ge i e.tracks.length with h | h
      · exact h
      · rw [List.getElem?_eq_none h] at ht; cases ht
    have hs1 := List.getElem?_eq_getElem (l := v.spins) (i := i) (by omega)
    have hc1 := List.getElem?_eq_getElem (l := v.colors) (i := i) (by omega)
    generalize v.spins[i] = s at hs1
    generalize v.colors[i] = cf at hc1
    have hsp := fun j b hj hb => element_chunk 3 (fun s : W64 × W64 × W64 => [s.1, s.2.1, s.2.2]) (fun _ => rfl) v.spins i j hj s b hs1 hb
    have hco := fun j b hj hb => element_chunk 2 (fun c : Int × Int => [c.1, c.2]) (fun _ => rfl) v.colors i j hj cf b hc1 hb
    simp only [Option.map_some]
    rw [hsp 0 s.1 (by decide) rfl, hsp 1 s.2.1 (by decide) rfl, hsp 2 s.2.2 (by decide) rfl, hco 0 cf.1 (by decide) rfl, hco 1 cf.2 (by decide) rfl]
    refine ⟨{ pdg := t.pid, charge3 := c, momentum := [t.px, t.py, t.pz].map fun c => ar.widen (ar.narrow c), mass := ar.widen (ar.narrow t.m),
              vertex := [t.x, t.y, t.z], genStatus := t.status, time := ar.narrow (ar.overLight t.t), spin := [s.1, s.2.1, s.2.2].map ar.narrow,
              colorFlow := [cf.1, cf.2] }, ?_, ⟨rfl, hc, rfl, rfl, rfl, rfl, rfl⟩, (fun h => by cases h), fun v' s' cf' h h1 h2 => ?_⟩
    · show (threeCharge t.pid >>= _) = _
      rw [hc]; rfl
    · cases h
      rw [hs1] at h1; rw [hc1] at h2; cases h1; cases h2
      exact ⟨rfl, rfl⟩

theorem particles_eq (ar : HepArith) (ev : LEvent) (e : HepEvent) (h : EventIs ev e) (hu : Usable e) :
    ∃ ps, (List.range e.tracks.length).mapM (hepParticle ar ev) = .ok ps ∧ ps.length = e.tracks.length ∧
      ∀ (i : Nat) t p, e.tracks[i]? = some t → ps[i]? = some p → SameParticle ar t p ∧ (e.ev4 = none → p.spin = [0, 0, 0] ∧ p.colorFlow = [0, 0]) ∧
      ∀ v s cf, e.ev4 = some v → v.spins[i]? = some s → v.colors[i]? = some cf → p.spin = [s.1, s.2.1, s.2.2].map ar.narrow ∧ p.colorFlow = [cf.1, cf.2] := by
  have hex : ∀ i : Fin e.tracks.length, ∃ p, hepParticle ar ev i = .ok p ∧ SameParticle ar e.tracks[i] p ∧ (e.ev4 = none → p.spin = [0, 0, 0] ∧ p.colorFlow = [0, 0]) ∧
      ∀ v s cf, e.ev4 = some v → v.spins[i.1]? = some s → v.colors[i.1]? = some cf → p.spin = [s.1, s.2.1, s.2.2].map ar.narrow ∧ p.colorFlow = [cf.1, cf.2] :=
    fun i => hepParticle_eq ar ev e h hu i _ (List.getElem?_eq_getElem i.2)
  let g : Fin e.tracks.length → HepParticle := fun i => (hex i).choose
  have hg := fun i => (hex i).choose_spec
  have hlen : (List.ofFn g).length = e.tracks.length := List.length_ofFn
  have hget : ∀ (i : Nat) p, (List.ofFn g)[i]? = some p → ∃ hi : i < e.tracks.length, p = g ⟨i, hi⟩ := by
    intro i p hp
    rw [List.getElem?_ofFn] at hp
    split at hp
    · rename_i hi; cases hp; exact ⟨hi, rfl⟩
    · cases hp
  refine ⟨List.ofFn g, ?_, hlen, ?_⟩
  · have := mapM_range (hepParticle ar ev) (List.ofFn g) fun i p hp => by
      obtain ⟨hi, rfl⟩ := hget i p hp
      exact (hg ⟨i, hi⟩).1
    rw [hlen] at this
    exact this
  · intro i t p ht hp
    obtain ⟨hi, rfl⟩ := hget i p hp
    rw [List.getElem?_eq_getElem hi] at ht
    cases ht
    exact (hg ⟨i, hi⟩).2

end Util
