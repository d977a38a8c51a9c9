import Verif.Spec.Damage
import Verif.Props.Blocks
/-
Reading arbitrary bytes.
-/
namespace Lcio
open Sio Spec

/-- Outcomes that are no exceptions. -/
def Err.bad (e : Err) : Prop := e = .ub ∨ e = .diverge

/-- A program that throws nothing but exceptions. -/
def Tame {α : Type} : RProg α → Prop
  | .ret _ => True
  | .throw e => e ≠ .ub ∧ e ≠ .diverge
  | .arr _ _ k => ∀ l, Tame (k l)
  | .ptr k => ∀ w, Tame (k w)
  | .tag _ k => Tame k
  | .new k => ∀ o, Tame (k o)

theorem tame_bind {α β : Type} {p : RProg α} {f : α → RProg β} (hp : Tame p) (hf : ∀ a, Tame (f a)) : Tame (p >>= f) := by
  show Tame (RProg.bind p f)
  induction p with
  | ret a => exact hf a
  | throw e => exact hp
  | arr s c k ih => intro l; exact ih l (hp l)
  | ptr k ih => intro w; exact ih w (hp w)
  | tag o k ih => exact ih hp
  | new k ih => intro o; exact ih o (hp o)

theorem tame_pure {α : Type} (a : α) : Tame (pure a : RProg α) := trivial
theorem tame_ret {α : Type} (a : α) : Tame (.ret a : RProg α) := trivial

theorem tame_map {α β : Type} {p : RProg α} (f : α → β) (hp : Tame p) : Tame (f <$> p) := tame_bind hp fun _ => trivial

theorem tame_r32 : Tame r32 := fun _ => trivial
theorem tame_r64 : Tame r64 := fun _ => trivial
theorem tame_r32s (n) : Tame (r32s n) := fun _ => trivial
theorem tame_r64s (n) : Tame (r64s n) := fun _ => trivial
theorem tame_r8s (n) : Tame (r8s n) := fun _ => trivial
theorem tame_rPtr : Tame rPtr := fun _ => trivial
theorem tame_rTag (o) : Tame (rTag o) := trivial
theorem tame_rNew : Tame rNew := fun _ => trivial

theorem tame_ite {α : Type} {c : Prop} [Decidable c] {p q : RProg α} (hp : Tame p) (hq : Tame q) : Tame (if c then p else q) := by
  split <;> assumption

theorem tame_throw {α : Type} {e : Err} (h1 : e ≠ .ub) (h2 : e ≠ .diverge) : Tame (.throw e : RProg α) := ⟨h1, h2⟩

theorem tame_rIf {α : Type} {c : Bool} {p : RProg α} {d : α} (hp : Tame p) : Tame (rIf c p d) := by
  unfold rIf; split
  · exact hp
  · trivial

theorem tame_rRepeat {α : Type} {p : RProg α} (hp : Tame p) : ∀ n, Tame (rRepeat n p)
  | 0 => trivial
  | n+1 => tame_bind hp fun _ => tame_bind (tame_rRepeat hp n) fun _ => trivial

theorem tame_rStr : Tame rStr := tame_bind tame_r32 fun _ => tame_ite (tame_throw (by decide) (by decide)) (tame_r8s _)
theorem tame_rCount : Tame rCount := tame_bind tame_r32 fun _ => tame_ite (tame_throw (by decide) (by decide)) trivial
theorem tame_rSized {α : Type} {p : RProg α} (hp : Tame p) : Tame (rSized p) := tame_bind tame_rCount fun _ => tame_rRepeat hp _
theorem tame_rFor {α : Type} {p : RProg α} (hp : Tame p) : Tame (rFor p) := tame_bind tame_r32 fun _ => tame_rRepeat hp _
theorem tame_rVec32 (old) : Tame (rVec32 old) := tame_bind tame_r32 fun _ => tame_ite (tame_r32s _) trivial
theorem tame_rVec64 (old) : Tame (rVec64 old) := tame_bind tame_r32 fun _ => tame_ite (tame_r64s _) trivial
theorem tame_rVec16 (old) : Tame (rVec16 old) := tame_bind tame_r32 fun _ => tame_ite (fun _ => trivial) trivial
theorem tame_rVecStr (old) : Tame (rVecStr old) := tame_bind tame_r32 fun _ => tame_ite (tame_rRepeat tame_rStr _) trivial

theorem tame_asFailure {α : Type} {p : RProg α} (hp : Tame p) : Tame p.asFailure := by
  induction p with
  | ret a => trivial
  | throw e =>
    have := hp
    unfold RProg.asFailure
    rw [if_neg (by simp only [Tame] at hp; rintro (h | h); exact hp.1 h; exact hp.2 h)]
    exact ⟨by decide, by decide⟩
  | arr s c k ih => intro l; exact ih l (hp l)
  | ptr k ih => intro w; exact ih w (hp w)
  | tag o k ih => exact ih hp
  | new k ih => intro o; exact ih o (hp o)

/-! ## Running programs -/

/-- What a program asks for depends on the bytes and the position only. -/
theorem overlong_congr {α : Type} (p : RProg α) (d d' : RDev) (h : d.buf = d'.buf ∧ d.cur = d'.cur ∧ d.next = d'.next) : Overlong p d ↔ Overlong p d' := by
  have hd : ∀ (d d' : RDev), (d.buf = d'.buf ∧ d.cur = d'.cur ∧ d.next = d'.next) → ∀ s c,
      (∃ e, d.data s c = .error e ∧ d'.data s c = .error e) ∨
      ∃ vs e e', d.data s c = .ok (vs, e) ∧ d'.data s c = .ok (vs, e') ∧ e.buf = e'.buf ∧ e.cur = e'.cur ∧ e.next = e'.next := by
    intro d d' ⟨h1, h2, h3⟩ s c
    unfold RDev.data
    rw [← h1, ← h2]
    cases apiRead d.buf s d.cur c with
    | error e => exact Or.inl ⟨e, rfl, rfl⟩
    | ok v => exact Or.inr ⟨_, _, _, rfl, rfl, by simp [h1], by simp, h3⟩
  induction p generalizing d d' with
  | ret a => exact Iff.rfl
  | throw e => exact Iff.rfl
  | arr s c k ih =>
    unfold Overlong
    rcases hd d d' h s c with ⟨e, h1, h2⟩ | ⟨vs, e, e', h1, h2, h3⟩
    · simp [h1, h2]
    · simp only [h1, h2]
      exact or_congr Iff.rfl (ih vs e e' h3)
  | ptr k ih =>
    unfold Overlong
    rcases hd d d' h 4 1 with ⟨e, h1, h2⟩ | ⟨vs, e, e', h1, h2, h3⟩
    · simp [h1, h2]
    · simp only [h1, h2]
      exact ih _ e e' h3
  | tag o k ih =>
    unfold Overlong
    rcases hd d d' h 4 1 with ⟨e, h1, h2⟩ | ⟨vs, e, e', h1, h2, h3⟩
    · simp [h1, h2]
    · simp only [h1, h2]
      exact ih e e' h3
  | new k ih =>
    unfold Overlong
    rw [h.2.2]
    exact ih _ _ _ ⟨h.1, h.2.1, rfl⟩

theorem apiRead_ne_ub (buf : List Byte) (s p c : Nat) (h : s * c < 2 ^ 32 - 3) : apiRead buf s p c ≠ .error .ub := by
  unfold apiRead
  have := padLen_ge (s * c) (by omega)
  simp only
  split
  · simp
  · split
    · omega
    · simp

theorem data_ne_ub (d : RDev) (s c : Nat) (h : s * c < 2 ^ 32 - 3) : d.data s c ≠ .error .ub := by
  unfold RDev.data
  have := apiRead_ne_ub d.buf s d.cur c h
  split
  · rename_i e he
    intro h'
    cases h'
    exact this he
  · simp

/-- Tame programs have undefined behaviour only if they ask for too much, and never run for ever. -/
theorem tame_run {α : Type} (p : RProg α) (hp : Tame p) (d : RDev) (e : Err) (h : p.run d = .error e) : (e = .ub → Overlong p d) ∧ e ≠ .diverge := by
  induction p generalizing d with
  | ret a => cases h
  | throw e' => cases h; exact ⟨fun h => absurd h hp.1, hp.2⟩
  | arr s c k ih =>
    unfold RProg.run at h
    unfold Overlong
    cases hd : d.data s c with
    | error e' =>
      rw [hd] at h
      cases h
      refine ⟨fun h => Or.inl ?_, fun h => data_ne_diverge _ _ _ (h ▸ hd)⟩
      rcases Nat.lt_or_ge (s * c) (2 ^ 32 - 3) with hc | hc
      · exact absurd (h ▸ hd) (data_ne_ub d s c hc)
      · exact hc
    | ok v =>
      rw [hd] at h
      obtain ⟨h1, h2⟩ := ih v.1 (hp v.1) v.2 h
      exact ⟨fun h => Or.inr (h1 h), h2⟩
  | ptr k ih =>
    unfold RProg.run at h
    unfold Overlong
    cases hd : d.data 4 1 with
    | error e' =>
      rw [hd] at h
      cases h
      exact ⟨fun h => absurd (h ▸ hd) (data_ne_ub d 4 1 (by decide)), fun h => data_ne_diverge _ _ _ (h ▸ hd)⟩
    | ok v =>
      rw [hd] at h
      obtain ⟨h1, h2⟩ := ih _ (hp _) _ h
      refine ⟨fun h => ?_, h2⟩
      exact (overlong_congr _ _ _ (by simp only; split <;> exact ⟨rfl, rfl, rfl⟩)).1 (h1 h)
  | tag o k ih =>
    unfold RProg.run at h
    unfold Overlong
    cases hd : d.data 4 1 with
    | error e' =>
      rw [hd] at h
      cases h
      exact ⟨fun h => absurd (h ▸ hd) (data_ne_ub d 4 1 (by decide)), fun h => data_ne_diverge _ _ _ (h ▸ hd)⟩
    | ok v =>
      rw [hd] at h
      obtain ⟨h1, h2⟩ := ih hp _ h
      refine ⟨fun h => ?_, h2⟩
      exact (overlong_congr _ _ _ (by split <;> exact ⟨rfl, rfl, rfl⟩)).1 (h1 h)
  | new k ih =>
    unfold RProg.run at h
    unfold Overlong
    exact ih _ (hp _) _ h

theorem not_tame_ub {α : Type} : ¬ Tame (.throw .ub : RProg α) := by
  intro h; simp [Tame] at h

/-- A program that never runs for ever by itself. -/
def Calm {α : Type} : RProg α → Prop
  | .ret _ => True
  | .throw e => e ≠ .diverge
  | .arr _ _ k => ∀ l, Calm (k l)
  | .ptr k => ∀ w, Calm (k w)
  | .tag _ k => Calm k
  | .new k => ∀ o, Calm (k o)

theorem Tame.calm {α : Type} {p : RProg α} (h : Tame p) : Calm p := by
  induction p with
  | ret _ => trivial
  | throw e => simp only [Tame] at h; exact h.2
  | arr s c k ih => exact fun l => ih l (h l)
  | ptr k ih => exact fun w => ih w (h w)
  | tag o k ih => exact ih h
  | new k ih => exact fun o => ih o (h o)

theorem calm_bind {α β : Type} {p : RProg α} {f : α → RProg β} (hp : Calm p) (hf : ∀ a, Calm (f a)) : Calm (p >>= f) := by
  show Calm (RProg.bind p f)
  induction p with
  | ret a => exact hf a
  | throw e => exact hp
  | arr s c k ih => exact fun l => ih l (hp l)
  | ptr k ih => exact fun w => ih w (hp w)
  | tag o k ih => exact ih hp
  | new k ih => exact fun o => ih o (hp o)

theorem calm_rRepeat {α : Type} {p : RProg α} (hp : Calm p) : ∀ n, Calm (rRepeat n p)
  | 0 => trivial
  | n+1 => calm_bind hp fun _ => calm_bind (calm_rRepeat hp n) fun _ => trivial

theorem calm_asFailure {α : Type} {p : RProg α} (hp : Calm p) : Calm p.asFailure := by
  induction p with
  | ret _ => trivial
  | throw e =>
    have h : e ≠ .diverge := hp
    unfold RProg.asFailure Calm
    split
    · exact h
    · decide
  | arr s c k ih => exact fun l => ih l (hp l)
  | ptr k ih => exact fun w => ih w (hp w)
  | tag o k ih => exact ih hp
  | new k ih => exact fun o => ih o (hp o)

theorem calm_run {α : Type} (p : RProg α) (hp : Calm p) (d : RDev) : p.run d ≠ .error .diverge := by
  induction p generalizing d with
  | ret _ => exact fun h => nomatch h
  | throw e => intro h; cases h; exact hp rfl
  | arr s c k ih =>
    unfold RProg.run
    split
    · rename_i e he
      intro h
      cases h
      exact data_ne_diverge _ _ _ he
    · exact ih _ (hp _) _
  | ptr k ih =>
    unfold RProg.run
    split
    · rename_i e he
      intro h
      cases h
      exact data_ne_diverge _ _ _ he
    · exact ih _ (hp _) _
  | tag o k ih =>
    unfold RProg.run
    split
    · rename_i e he
      intro h
      cases h
      exact data_ne_diverge _ _ _ he
    · exact ih hp _
  | new k ih => exact ih _ (hp _) _

attribute [irreducible] Tame

/-- Proves that a program is tame, call by call. -/
macro "tame" : tactic => `(tactic| with_reducible repeat' first
  | exact tame_r32 | exact tame_r64 | exact tame_r32s _ | exact tame_r64s _ | exact tame_r8s _ | exact tame_rPtr | exact tame_rTag _ | exact tame_rNew
  | exact tame_rStr | exact tame_rCount | exact tame_rVec32 _ | exact tame_rVec64 _ | exact tame_rVec16 _ | exact tame_rVecStr _
  | exact tame_pure _ | exact tame_ret _ | assumption
  | exact tame_throw (by decide) (by decide)
  | apply tame_rIf | apply tame_rSized | apply tame_rFor | apply tame_rRepeat | apply tame_map
  | (refine tame_bind ?_ fun _ => ?_) | (refine tame_ite ?_ ?_))

theorem tame_params (old) : Tame (Params.read old) := by
  have hm : ∀ {α : Type} (r : RProg α) (old), Tame r → Tame (readMap r old) := by
    intro α r old hr
    unfold readMap readEntry
    tame
  unfold Params.read
  have h1 := fun old => hm r32 old tame_r32
  have h2 := fun old => hm rStr old tame_rStr
  refine tame_bind (h1 _) fun _ => tame_bind (h1 _) fun _ => tame_bind (h2 _) fun _ => tame_pure _

theorem tame_checkVersion (v) : Tame (checkVersion v) := by unfold checkVersion; tame

theorem tame_runHeader (v) : Tame (RunHeader.read v) := by
  have := tame_checkVersion v
  have h2 := tame_params {}
  unfold RunHeader.read
  tame

theorem tame_readCols (only) : ∀ n cols, Tame (readCols only n cols)
  | 0, _ => tame_ret _
  | n+1, cols => by
    unfold readCols
    refine tame_bind tame_rStr fun name => tame_bind tame_rStr fun type => ?_
    split
    · split
      · rename_i e he
        refine tame_throw ?_ ?_ <;>
        · rintro rfl
          unfold addCol at he
          split at he
          · cases he
          · split at he <;> cases he
      · exact tame_readCols only n _
    · exact tame_readCols only n _

theorem tame_eventHeader (only v) : Tame (EventHeader.read only v) := by
  have := tame_checkVersion v
  have h2 := tame_params {}
  have h3 := fun n => tame_readCols only n []
  unfold EventHeader.read
  refine tame_bind this fun _ => tame_bind tame_r32 fun _ => tame_bind tame_r32 fun _ => tame_bind tame_r64 fun _ => tame_bind tame_rStr fun _ =>
    tame_bind tame_r32 fun _ => tame_bind (h3 _) fun _ => ?_
  tame

theorem tame_index (v) : Tame (readIndex v) := by
  have := tame_checkVersion v
  unfold readIndex readIndexEntry
  tame

theorem tame_access (v) : Tame (RandomAccess.read v) := by
  have := tame_checkVersion v
  unfold RandomAccess.read
  tame

theorem tame_states (v) : ∀ n l, Tame (readStates v n l)
  | 0, _ => tame_ret _
  | n+1, l => by
    unfold readStates
    refine tame_bind (by unfold TrackState.read; tame) fun s => ?_
    split
    · rename_i e he
      refine tame_throw ?_ ?_ <;>
      · rintro rfl
        unfold addTrackState at he
        split at he <;> cases he
    · exact tame_states v n _

theorem tame_pidData : Tame Pid.readData := by unfold Pid.readData; tame
theorem tame_pid : Tame Pid.read := by
  have := tame_pidData
  unfold Pid.read; tame

theorem tame_track (c v self) : Tame (Track.read c v self) := by
  have := fun n => tame_states v n []
  unfold Track.read
  refine tame_bind tame_r32 fun _ => tame_bind (tame_rIf tame_r32) fun _ => tame_bind (this _) fun _ => ?_
  tame

theorem tame_cluster (c v self) : Tame (Cluster.read c v self) := by
  have := tame_pidData
  unfold Cluster.read
  tame

theorem tame_reco (c v self) (hv : newer v 1 2 = true) : Tame (RecoParticle.read c v self) := by
  have := tame_pid
  unfold RecoParticle.read
  rw [hv]
  simp only [Bool.not_true, Bool.false_eq_true, if_false]
  tame

theorem calm_reco (c v self) : Calm (RecoParticle.read c v self) := by
  cases hv : newer v 1 2 with
  | true => exact (tame_reco c v self hv).calm
  | false =>
    unfold RecoParticle.read
    rw [hv]
    simp only [Bool.not_false, if_true]
    have hw : Tame rWeighted := by unfold rWeighted; tame
    have hp : Tame Pid.readOld := by unfold Pid.readOld; tame
    have hd : ∀ n, Calm (rDummy n) := by
      intro n
      unfold rDummy Calm
      intro l
      simp only
      split
      · trivial
      · show Err.ub ≠ Err.diverge
        decide
    unfold RecoParticle.readOld
    refine calm_bind tame_r32.calm fun _ => calm_bind (tame_r64s _).calm fun _ => calm_bind tame_r64.calm fun _ => calm_bind (tame_r32s _).calm fun _ =>
      calm_bind tame_r64.calm fun _ => calm_bind tame_r32.calm fun _ => calm_bind (tame_r32s _).calm fun _ => calm_bind (tame_rFor hp).calm fun _ =>
      calm_bind hw.calm fun _ => calm_bind hw.calm fun _ => calm_bind hw.calm fun _ => calm_bind tame_r32.calm fun _ => calm_bind (hd _) fun _ =>
      calm_bind (hd _) fun _ => calm_bind (tame_rTag _).calm fun _ => (tame_pure _).calm

theorem tame_obj (c v self) (k : Kind) (hv : k = .recoParticle → newer v 1 2 = true) : Tame (readObj c v self k) := by
  have h1 := tame_track c v self
  have h2 := tame_cluster c v self
  have h3 := tame_reco c v self
  cases k <;> unfold readObj <;> apply tame_map
  · unfold MCParticle.read; tame
  · unfold SimCalHit.read SimCont.read; tame
  · unfold RawCalHit.read; tame
  · unfold CalHit.read; tame
  · unfold SimTrackerHit.read; tame
  · unfold TPCHit.read; tame
  · unfold TrackerRawData.read; tame
  · unfold TrackerData.read; tame
  · unfold TrackerPulse.read; tame
  · unfold TrackerHit.read; tame
  · unfold TrackerHitPlane.read; tame
  · unfold TrackerHitZCylinder.read; tame
  · exact h1
  · exact h2
  · exact h3 (hv rfl)
  · unfold Relation.read; tame
  · unfold Vertex.read; tame
  · unfold vecRead; tame
  · unfold vecRead; tame
  · unfold vecRead; tame
  · unfold Generic.read; tame

theorem tame_head (std k v) : Tame (readHead std k v) := by
  have := tame_params {}
  unfold readHead
  tame

/-- Collections of known types. -/
theorem tame_collection (std type v) (k : Kind) (hk : kindOf type = some k) (hv : k = .recoParticle → newer v 1 2 = true) :
    Tame (Collection.read std type v) := by
  unfold Collection.read
  rw [hk]
  have h1 := tame_head std k v
  have h2 : ∀ c, Tame (readElem k c v) := by
    intro c
    unfold readElem
    exact tame_bind tame_rNew fun self => tame_bind (tame_asFailure (tame_obj c v self k hv)) fun _ => tame_pure _
  refine tame_bind h1 fun p => ?_
  have h3 := h2 p.1
  refine tame_bind tame_rCount fun n => tame_bind (tame_rRepeat ?_ n) fun _ => tame_pure _
  split
  · exact tame_map _ tame_rPtr
  · exact h3

theorem calm_collection (std type v) : Calm (Collection.read std type v) := by
  cases hk : kindOf type with
  | none =>
    unfold Collection.read
    rw [hk]
    show Calm (.throw .ub)
    unfold Calm
    decide
  | some k =>
    by_cases hr : k = .recoParticle
    · subst hr
      unfold Collection.read
      rw [hk]
      refine calm_bind (tame_head std _ v).calm fun p => calm_bind tame_rCount.calm fun n => calm_bind (calm_rRepeat ?_ n) fun _ => (tame_pure _).calm
      split
      · exact (tame_map _ tame_rPtr).calm
      · unfold readElem
        exact calm_bind tame_rNew.calm fun self => calm_bind (calm_asFailure (calm_bind (calm_reco _ v self) fun _ => (tame_pure _).calm)) fun _ => (tame_pure _).calm
    · exact (tame_collection std type v k hk fun h => absurd h hr).calm

/-! ## Blocks -/

theorem relocate_ok (d : RDev) : ∃ d', d.relocate = .ok d' := by
  have key : ∀ fuel l mem, l.length ≤ fuel → ∃ m, readRelocLoop d.pointedAt fuel l mem = .ok m := by
    intro fuel
    induction fuel with
    | zero =>
      intro l mem h
      cases l with
      | nil => exact ⟨mem, rfl⟩
      | cons e es => simp at h
    | succ fuel ih =>
      intro l mem h
      cases l with
      | nil => exact ⟨mem, rfl⟩
      | cons e es =>
        unfold readRelocLoop
        apply ih
        rw [List.dropWhile_cons_of_pos (by simp)]
        have := (List.dropWhile_sublist (fun x : Nat × Nat => decide (x.1 ≤ e.1)) (l := es)).length_le
        simp at h
        omega
  unfold RDev.relocate
  obtain ⟨m, hm⟩ := key d.pointerTo.length d.pointerTo d.mem (Nat.le_refl _)
  rw [hm]
  exact ⟨_, rfl⟩

theorem tame_blockHeader : Tame blockHeader := by unfold blockHeader; tame

theorem extractBlock_ub (rec : List Byte) (p : Nat) (h : extractBlock rec p = .error .ub) : Overlong blockHeader { buf := rec.drop p } := by
  unfold extractBlock at h
  simp only [bind, Except.bind, throw, throwThe, MonadExceptOf.throw, pure, Except.pure] at h
  split at h
  · cases h
  · cases hb : blockHeader.run { buf := rec.drop p } with
    | error e =>
      rw [hb] at h
      cases h
      exact (tame_run _ tame_blockHeader _ _ hb).1 rfl
    | ok v =>
      rw [hb] at h
      simp only at h
      unfold RDev.seek at h
      split at h
      · rename_i e he
        split at he <;> cases he
        cases h
      · split at h <;> cases h

/-- Decoding any bytes has undefined behaviour only if a block asks for too much, or there is a block for a decoder that is not tame. -/
theorem readBlocks_ub' {α : Type} (rec : List Byte) (decs : List (RBlock α)) (next : Nat)
    (h : readBlocks rec decs next = .error .ub) : OverlongBlock rec decs ∨
      ∃ p info span, extractBlock rec p = .ok (info, span) ∧ ∃ b ∈ decs, b.name = info.name ∧ ¬ Tame (b.read info.version) := by
  have key : ∀ fuel p dev, readBlocksLoop rec decs fuel p dev = .error .ub → OverlongBlock rec decs ∨
      ∃ p info span, extractBlock rec p = .ok (info, span) ∧ ∃ b ∈ decs, b.name = info.name ∧ ¬ Tame (b.read info.version) := by
    intro fuel
    induction fuel with
    | zero =>
      intro p dev h
      unfold readBlocksLoop at h
      split at h <;> cases h
    | succ fuel ih =>
      intro p dev h
      unfold readBlocksLoop at h
      split at h
      · cases h
      · simp only [bind, Except.bind] at h
        cases hx : extractBlock rec p with
        | error e =>
          rw [hx] at h
          cases h
          exact Or.inl (Or.inl ⟨p, extractBlock_ub rec p hx⟩)
        | ok v =>
          obtain ⟨info, span⟩ := v
          rw [hx] at h
          simp only at h
          cases hf : decs.find? (fun b => b.name == info.name) with
          | none => rw [hf] at h; exact ih _ _ h
          | some b =>
            rw [hf] at h
            simp only at h
            have hb := List.mem_of_find?_eq_some hf
            have hn : b.name = info.name := by simpa using List.find?_some hf
            unfold RDev.seek at h
            simp only at h
            by_cases hs : info.headerLength > span.length
            · rw [if_pos hs] at h; cases h
            · rw [if_neg hs] at h
              simp only at h
              cases hr : (b.read info.version).run { dev with buf := span, cur := info.headerLength } with
              | error e =>
                rw [hr] at h
                simp only [rethrowing] at h
                have he : e = .ub := by
                  injection h with h
                  cases e <;> simp [rethrow] at h ⊢
                subst he
                by_cases ht : Tame (b.read info.version)
                · exact Or.inl (Or.inr ⟨p, info, span, hx, b, hb, hn, _, rfl, rfl, (tame_run _ ht _ _ hr).1 rfl⟩)
                · exact Or.inr ⟨p, info, span, hx, b, hb, hn, ht⟩
              | ok v =>
                rw [hr] at h
                simp only [rethrowing] at h
                cases hl : readBlocksLoop rec decs fuel info.recordEnd v.2 with
                | error e => rw [hl] at h; cases h; exact ih _ _ hl
                | ok w => rw [hl] at h; cases h
  unfold readBlocks at h
  simp only [bind, Except.bind] at h
  cases hl : readBlocksLoop rec decs (rec.length + 1) 0 { buf := [], next := next } with
  | error e => rw [hl] at h; cases h; exact key _ _ _ hl
  | ok v =>
    rw [hl] at h
    obtain ⟨d', hd'⟩ := relocate_ok v.2
    simp only [hd'] at h
    cases h

theorem readBlocks_ub {α : Type} (rec : List Byte) (decs : List (RBlock α)) (hd : ∀ b ∈ decs, ∀ v, Tame (b.read v)) (next : Nat)
    (h : readBlocks rec decs next = .error .ub) : OverlongBlock rec decs := by
  rcases readBlocks_ub' rec decs next h with h | ⟨p, info, span, _, b, hb, _, ht⟩
  · exact h
  · exact absurd (hd b hb info.version) ht

/-- ... and ends, unless there is a block of length zero. -/
theorem readBlocks_diverge {α : Type} (rec : List Byte) (decs : List (RBlock α)) (hd : ∀ b ∈ decs, ∀ v, Calm (b.read v)) (next : Nat)
    (hlen : rec.length < 2 ^ 32) (h : readBlocks rec decs next = .error .diverge) : ZeroBlock rec := by
  by_cases hz : ∃ p < rec.length, wordAt rec p = 0 ∧ wordAt rec (p + 4) = 0xdeadbeef
  · exact hz
  · exfalso
    refine (Props.C13_terminates_partial rec hlen ?_).2 α decs ?_ next h
    · intro p hp hw; exact hz ⟨p, hp, hw⟩
    · intro d hdm v dev hr
      exact calm_run _ (hd d hdm v) _ hr

/-! ## Relations -/

/-- The relations of an event can be restored: collections of particles have particles, whose relatives are particles of the event. -/
structure Closed (cols : List (Str × Collection)) : Prop where
  own : ∀ c ∈ cols, (c.2.type == str "MCParticle" && !c.2.flag.getLsbD 18) = true → ∀ e ∈ c.2.elems, e.particle ≠ none
  rel : ∀ e ∈ allElems cols, ∀ o, e.particle = some o → ∀ a ∈ o.parents ++ o.daughters, findParticle cols a ≠ none

theorem upd_particle (a : Nat) (f : MCParticle → MCParticle) (e : Elem) :
    (e.upd a f).particle = e.particle.map fun o => if e.addr = a then f o else o := by
  unfold Elem.upd Elem.particle
  cases h : e.obj with
  | none => simp [h]
  | some o =>
    cases o <;> simp only [h, Option.map]
    by_cases ha : e.addr = a <;> simp [ha, h]

theorem upd_addr (a : Nat) (f : MCParticle → MCParticle) (e : Elem) : (e.upd a f).addr = e.addr := by
  unfold Elem.upd
  split
  · split <;> rfl
  · rfl

theorem findParticle_ne_none {cols : List (Str × Collection)} {a : Nat} :
    findParticle cols a ≠ none ↔ ∃ e ∈ allElems cols, e.addr = a ∧ e.particle ≠ none := by
  unfold findParticle
  rw [ne_eq, List.findSome?_eq_none_iff]
  simp only [Classical.not_forall]
  constructor
  · rintro ⟨e, he, h⟩
    by_cases ha : e.addr = a
    · rw [if_pos ha] at h; exact ⟨e, he, ha, h⟩
    · rw [if_neg ha] at h; exact absurd rfl h
  · rintro ⟨e, he, ha, h⟩
    exact ⟨e, he, by rw [if_pos ha]; exact h⟩

theorem allElems_upd (a : Nat) (f : MCParticle → MCParticle) (cols : List (Str × Collection)) :
    allElems (updParticle a f cols) = (allElems cols).map (·.upd a f) := by
  unfold allElems updParticle
  simp [List.flatMap_map, List.map_flatMap]

theorem find_upd (a : Nat) (f : MCParticle → MCParticle) (cols : List (Str × Collection)) (b : Nat) :
    findParticle (updParticle a f cols) b ≠ none ↔ findParticle cols b ≠ none := by
  rw [findParticle_ne_none, findParticle_ne_none, allElems_upd]
  simp only [List.mem_map]
  constructor
  · rintro ⟨_, ⟨e, he, rfl⟩, h1, h2⟩
    rw [upd_addr] at h1
    rw [upd_particle] at h2
    exact ⟨e, he, h1, by intro h; rw [h] at h2; exact h2 rfl⟩
  · rintro ⟨e, he, h1, h2⟩
    refine ⟨_, ⟨e, he, rfl⟩, by rw [upd_addr]; exact h1, ?_⟩
    rw [upd_particle]
    intro h
    exact h2 (by simpa using h)

theorem upd_closed {cols : List (Str × Collection)} (h : Closed cols) (a m : Nat) (hm : findParticle cols m ≠ none) (f : MCParticle → MCParticle)
    (hf : ∀ o, ∀ x ∈ (f o).parents ++ (f o).daughters, x ∈ o.parents ++ o.daughters ∨ x = m) : Closed (updParticle a f cols) := by
  constructor
  · intro c hc ho e he
    unfold updParticle at hc
    obtain ⟨c0, hc0, rfl⟩ := List.mem_map.1 hc
    obtain ⟨e0, he0, rfl⟩ := List.mem_map.1 he
    rw [upd_particle]
    intro hn
    exact h.own c0 hc0 ho e0 he0 (by simpa using hn)
  · intro e he o ho x hx
    rw [allElems_upd] at he
    obtain ⟨e0, he0, rfl⟩ := List.mem_map.1 he
    rw [upd_particle] at ho
    rw [find_upd]
    cases hp : e0.particle with
    | none => rw [hp] at ho; cases ho
    | some o0 =>
      rw [hp] at ho
      simp only [Option.map_some, Option.some.injEq] at ho
      subst ho
      split at hx
      · rcases hf o0 x hx with h' | rfl
        · exact h.rel e0 he0 o0 hp x h'
        · exact hm
      · exact h.rel e0 he0 o0 hp x hx

theorem pushDaughters_closed (m : Nat) : ∀ (l : List Nat) {cols : List (Str × Collection)}, Closed cols → findParticle cols m ≠ none → (∀ a ∈ l, findParticle cols a ≠ none) →
    ∃ cols', pushDaughters m l cols = .ok cols' ∧ Closed cols' ∧ cols'.length = cols.length ∧ ∀ b, findParticle cols' b ≠ none ↔ findParticle cols b ≠ none
  | [], cols, h, _, _ => ⟨cols, rfl, h, rfl, fun _ => Iff.rfl⟩
  | a :: l, cols, h, hm, hl => by
    unfold pushDaughters
    have ha := hl a (by simp)
    split
    · contradiction
    · obtain ⟨cols', h1, h2, h3, h4⟩ := pushDaughters_closed m l
        (upd_closed h a m hm (fun o => { o with daughters := o.daughters ++ [m] }) (by intro o x hx; simp at hx ⊢; rcases hx with h | h | h <;> simp [h]))
        ((find_upd _ _ _ _).2 hm) (fun b hb => (find_upd _ _ _ _).2 (hl b (by simp [hb])))
      exact ⟨cols', h1, h2, by rw [h3]; simp [updParticle], fun b => (h4 b).trans (find_upd _ _ _ _)⟩

theorem pushParents_closed (m : Nat) : ∀ (l : List Nat) {cols : List (Str × Collection)}, Closed cols → findParticle cols m ≠ none → (∀ a ∈ l, findParticle cols a ≠ none) →
    ∃ cols', pushParents m l cols = .ok cols' ∧ Closed cols' ∧ cols'.length = cols.length ∧ ∀ b, findParticle cols' b ≠ none ↔ findParticle cols b ≠ none
  | [], cols, h, _, _ => ⟨cols, rfl, h, rfl, fun _ => Iff.rfl⟩
  | a :: l, cols, h, hm, hl => by
    unfold pushParents
    have ha := hl a (by simp)
    split
    · contradiction
    · obtain ⟨cols', h1, h2, h3, h4⟩ := pushParents_closed m l
        (upd_closed h a m hm (fun o => { o with parents := o.parents ++ [m] }) (by intro o x hx; simp at hx ⊢; rcases hx with h | h | h <;> simp [h]))
        ((find_upd _ _ _ _).2 hm) (fun b hb => (find_upd _ _ _ _).2 (hl b (by simp [hb])))
      exact ⟨cols', h1, h2, by rw [h3]; simp [updParticle], fun b => (h4 b).trans (find_upd _ _ _ _)⟩

theorem findParticle_mem {cols : List (Str × Collection)} {a : Nat} {o : MCParticle} (h : findParticle cols a = some o) : ∃ e ∈ allElems cols, e.particle = some o := by
  unfold findParticle at h
  obtain ⟨e, he, h⟩ := List.exists_of_findSome?_eq_some h
  split at h
  · exact ⟨e, he, h⟩
  · cases h

theorem restoreLoop_closed (nD nP : Nat) : ∀ (l : List Nat) {cols : List (Str × Collection)}, Closed cols → (∀ a ∈ l, findParticle cols a ≠ none) →
    ∃ cols', restoreLoop nD nP l cols = .ok cols' ∧ Closed cols' ∧ cols'.length = cols.length
  | [], cols, h, _ => ⟨cols, rfl, h, rfl⟩
  | a :: l, cols, h, hl => by
    unfold restoreLoop
    have ha := hl a (by simp)
    split
    · contradiction
    · rename_i mcp hmcp
      obtain ⟨e, he, hp⟩ := findParticle_mem hmcp
      have hr := h.rel e he mcp hp
      split
      · obtain ⟨cols', h1, h2, h3, h4⟩ := pushParents_closed a mcp.daughters h ha (fun x hx => hr x (by simp [hx]))
        simp only [h1]
        obtain ⟨cols'', i1, i2, i3⟩ := restoreLoop_closed nD nP l h2 (fun b hb => (h4 b).2 (hl b (by simp [hb])))
        exact ⟨cols'', i1, i2, i3.trans h3⟩
      · split
        · obtain ⟨cols', h1, h2, h3, h4⟩ := pushDaughters_closed a mcp.parents h ha (fun x hx => hr x (by simp [hx]))
          simp only [h1]
          obtain ⟨cols'', i1, i2, i3⟩ := restoreLoop_closed nD nP l h2 (fun b hb => (h4 b).2 (hl b (by simp [hb])))
          exact ⟨cols'', i1, i2, i3.trans h3⟩
        · exact restoreLoop_closed nD nP l h (fun b hb => hl b (by simp [hb]))

theorem particles_ne_none : ∀ (l : List Elem), (∀ e ∈ l, e.particle ≠ none) → ∃ ps, particles l = some ps
  | [], _ => ⟨[], rfl⟩
  | e :: l, h => by
    obtain ⟨ps, hps⟩ := particles_ne_none l (fun e he => h e (by simp [he]))
    obtain ⟨o, ho⟩ := Option.ne_none_iff_exists'.1 (h e (by simp))
    exact ⟨o :: ps, by simp [particles, ho, hps]⟩

theorem restoreRelations_closed {cols : List (Str × Collection)} (h : Closed cols) : ∃ cols', restoreRelations cols = .ok cols' ∧ Closed cols' := by
  have key : ∀ n i (cols : List (Str × Collection)), Closed cols → ∃ cols', restoreFrom i n cols = .ok cols' ∧ Closed cols' := by
    intro n
    induction n with
    | zero => intro i cols h; exact ⟨cols, rfl, h⟩
    | succ n ih =>
      intro i cols h
      have : ∃ cols', restoreCol i cols = .ok cols' ∧ Closed cols' := by
        unfold restoreCol
        cases hc : cols[i]? with
        | none => exact ⟨cols, rfl, h⟩
        | some c =>
          have hmem : c ∈ cols := List.mem_of_getElem? hc
          simp only
          split
          · rename_i ho
            obtain ⟨ps, hps⟩ := particles_ne_none c.2.elems (h.own c hmem ho)
            simp only [hps]
            obtain ⟨cols', h1, h2, _⟩ := restoreLoop_closed ((ps.map (·.daughters.length)).sum) ((ps.map (·.parents.length)).sum) (c.2.elems.map (·.addr)) h (by
              intro a ha
              obtain ⟨e, he, rfl⟩ := List.mem_map.1 ha
              exact findParticle_ne_none.2 ⟨e, List.mem_flatMap.2 ⟨c, hmem, he⟩, rfl, h.own c hmem ho e he⟩)
            exact ⟨cols', h1, h2⟩
          · exact ⟨cols, rfl, h⟩
      obtain ⟨cols', h1, h2⟩ := this
      unfold restoreFrom
      simp only [h1]
      exact ih (i + 1) cols' h2
  exact key _ _ _ h

/-! ## What collections look like when they have been read -/

/-- All results of a program have the property. -/
def Gives {α : Type} (Q : α → Prop) : RProg α → Prop
  | .ret a => Q a
  | .throw _ => True
  | .arr _ _ k => ∀ l, Gives Q (k l)
  | .ptr k => ∀ w, Gives Q (k w)
  | .tag _ k => Gives Q k
  | .new k => ∀ o, Gives Q (k o)

theorem gives_run {α : Type} {Q : α → Prop} {p : RProg α} (hp : Gives Q p) {d : RDev} {v} (h : p.run d = .ok v) : Q v.1 := by
  induction p generalizing d with
  | ret a => cases h; exact hp
  | throw e => cases h
  | arr s c k ih =>
    unfold RProg.run at h
    split at h
    · cases h
    · exact ih _ (hp _) h
  | ptr k ih =>
    unfold RProg.run at h
    split at h
    · cases h
    · exact ih _ (hp _) h
  | tag o k ih =>
    unfold RProg.run at h
    split at h
    · cases h
    · exact ih hp h
  | new k ih => exact ih _ (hp _) h

theorem gives_true {α : Type} (p : RProg α) : Gives (fun _ => True) p := by
  induction p with
  | ret a => trivial
  | throw e => trivial
  | arr s c k ih => exact ih
  | ptr k ih => exact ih
  | tag o k ih => exact ih
  | new k ih => exact ih

theorem gives_bind {α β : Type} {P : α → Prop} {Q : β → Prop} {p : RProg α} {f : α → RProg β} (hp : Gives P p) (hf : ∀ a, P a → Gives Q (f a)) : Gives Q (p >>= f) := by
  show Gives Q (RProg.bind p f)
  induction p with
  | ret a => exact hf a hp
  | throw e => trivial
  | arr s c k ih => intro l; exact ih l (hp l)
  | ptr k ih => intro w; exact ih w (hp w)
  | tag o k ih => exact ih hp
  | new k ih => intro o; exact ih o (hp o)

theorem gives_any {α β : Type} {Q : β → Prop} {p : RProg α} {f : α → RProg β} (hf : ∀ a, Gives Q (f a)) : Gives Q (p >>= f) :=
  gives_bind (gives_true p) fun a _ => hf a

theorem gives_repeat {α : Type} {Q : α → Prop} {p : RProg α} (hp : Gives Q p) : ∀ n, Gives (fun l => ∀ x ∈ l, Q x) (rRepeat n p)
  | 0 => by intro x hx; cases hx
  | n+1 => by
    refine gives_bind hp fun a ha => gives_bind (gives_repeat hp n) fun l hl => ?_
    intro x hx
    rcases List.mem_cons.1 hx with rfl | hx
    · exact ha
    · exact hl x hx

theorem gives_asFailure {α : Type} {Q : α → Prop} {p : RProg α} (hp : Gives Q p) : Gives Q p.asFailure := by
  induction p with
  | ret a => exact hp
  | throw e => trivial
  | arr s c k ih => intro l; exact ih l (hp l)
  | ptr k ih => intro w; exact ih w (hp w)
  | tag o k ih => exact ih hp
  | new k ih => intro o; exact ih o (hp o)

/-- A collection that has just been read. -/
def FreshAt (type : Str) (c : Collection) : Prop :=
  c.type = type ∧ (∀ e ∈ c.elems, ∀ o, e.obj = some (.mcParticle o) → OwnParticles c ∧ o.daughters = []) ∧
  (OwnParticles c → ∀ e ∈ c.elems, e.particle ≠ none)

theorem kindOf_mc {type : Str} (h : kindOf type = some .mcParticle) : type = str "MCParticle" := by
  unfold kindOf at h
  obtain ⟨⟨t, k⟩, hf, hk⟩ := Option.map_eq_some_iff.1 h
  have h1 := List.mem_of_find?_eq_some hf
  have h2 : t = type := by simpa using List.find?_some hf
  subst h2
  simp only at hk
  subst hk
  simp only [handlers, List.mem_cons, Prod.mk.injEq, reduceCtorEq, and_false, and_true, List.not_mem_nil, or_false] at h1
  exact h1

theorem gives_obj (c v self) (k : Kind) : Gives (fun o => (∀ p, o = .mcParticle p → k = .mcParticle ∧ p.daughters = []) ∧ (k = .mcParticle → ∃ p, o = .mcParticle p)) (readObj c v self k) := by
  cases k
  case mcParticle =>
    unfold readObj
    refine gives_bind (P := fun p => p.daughters = []) ?_ fun p hp => ⟨fun q hq => by cases hq; exact ⟨rfl, hp⟩, fun _ => ⟨p, rfl⟩⟩
    unfold MCParticle.read
    repeat (refine gives_any fun _ => ?_)
    rfl
  all_goals
    unfold readObj
    exact gives_any fun p => ⟨fun q hq => (nomatch hq), fun h => (nomatch h)⟩

theorem gives_collection (std type v) : Gives (FreshAt type) (Collection.read std type v) := by
  unfold Collection.read
  split
  · trivial
  · rename_i k hk
    refine gives_any fun p => ?_
    obtain ⟨c, params⟩ := p
    refine gives_any fun n => ?_
    refine gives_bind (P := fun l => ∀ e ∈ l, (∀ o, e.obj = some (.mcParticle o) → c.bit 18 = false ∧ k = .mcParticle ∧ o.daughters = []) ∧ (c.bit 18 = false → k = .mcParticle → e.particle ≠ none))
      (gives_repeat ?_ n) fun elems he => ?_
    · split
      · rename_i hb
        refine gives_any fun a => ⟨fun o ho => (nomatch ho), fun h => ?_⟩
        rw [hb] at h; cases h
      · rename_i hb
        unfold readElem
        refine gives_any fun self => gives_bind (gives_asFailure (gives_obj c v self k)) fun o ho => ⟨?_, ?_⟩
        · intro p hp
          simp only [Option.some.injEq] at hp
          exact ⟨by simpa using hb, ho.1 p hp⟩
        · intro _ hk
          obtain ⟨p, rfl⟩ := ho.2 hk
          simp [Elem.particle]
    · refine ⟨rfl, ?_, ?_⟩
      · intro e hm o ho
        obtain ⟨h1, h2, h3⟩ := (he e hm).1 o ho
        subst h2
        exact ⟨⟨kindOf_mc hk, h1⟩, h3⟩
      · rintro ⟨h1, h2⟩ e hm
        simp only at h1
        refine (he e hm).2 h2 ?_
        subst h1
        have : kindOf (str "MCParticle") = some .mcParticle := by decide
        rw [this] at hk
        cases hk; rfl

/-- What decoders give is what the record gives. -/
theorem readBlocks_gives {α : Type} {Q : List Byte → α → Prop} (rec : List Byte) (decs : List (RBlock α)) (hd : ∀ b ∈ decs, ∀ v, Gives (Q b.name) (b.read v)) (next : Nat)
    {res} (h : readBlocks rec decs next = .ok res) : ∀ r ∈ res.1, Q r.1 r.2 := by
  have key : ∀ fuel p dev res, readBlocksLoop rec decs fuel p dev = .ok res → ∀ r ∈ res.1, Q r.1 r.2 := by
    intro fuel
    induction fuel with
    | zero =>
      intro p dev res h
      unfold readBlocksLoop at h
      split at h <;> cases h
      simp
    | succ fuel ih =>
      intro p dev res h
      unfold readBlocksLoop at h
      split at h
      · cases h; simp
      · simp only [bind, Except.bind] at h
        cases hx : extractBlock rec p with
        | error e => rw [hx] at h; cases h
        | ok v =>
          obtain ⟨info, span⟩ := v
          rw [hx] at h
          simp only at h
          cases hf : decs.find? (fun b => b.name == info.name) with
          | none => rw [hf] at h; exact ih _ _ _ h
          | some b =>
            rw [hf] at h
            simp only at h
            have hb := List.mem_of_find?_eq_some hf
            have hn : b.name = info.name := by simpa using List.find?_some hf
            unfold RDev.seek at h
            simp only at h
            by_cases hs : info.headerLength > span.length
            · rw [if_pos hs] at h; cases h
            · rw [if_neg hs] at h
              simp only at h
              cases hr : (b.read info.version).run { dev with buf := span, cur := info.headerLength } with
              | error e => rw [hr] at h; cases h
              | ok v =>
                rw [hr] at h
                simp only [rethrowing] at h
                cases hl : readBlocksLoop rec decs fuel info.recordEnd v.2 with
                | error e => rw [hl] at h; cases h
                | ok w =>
                  rw [hl] at h
                  cases h
                  intro r hr'
                  rcases List.mem_cons.1 hr' with rfl | hr'
                  · simp only; rw [← hn]; exact gives_run (hd b hb _) hr
                  · exact ih _ _ _ hl r hr'
  unfold readBlocks at h
  simp only [bind, Except.bind] at h
  cases hl : readBlocksLoop rec decs (rec.length + 1) 0 { buf := [], next := next } with
  | error e => rw [hl] at h; cases h
  | ok v =>
    rw [hl] at h
    obtain ⟨d', hd'⟩ := relocate_ok v.2
    simp only [hd'] at h
    cases h
    exact key _ _ _ _ hl

end Lcio
