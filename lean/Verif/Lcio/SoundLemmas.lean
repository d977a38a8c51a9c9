import Verif.Spec.Sound
import Verif.Lcio.DamageLemmas
/-
The objects that are made when a record is read, and the pointers between them. (C99)
-/
namespace Lcio
open Sio Spec

/-! ## Programs that make no objects -/

/-- A program that makes no objects and makes nothing but `s` known as the target of pointers. -/
def Quiet {α : Type} (s : Nat) : RProg α → Prop
  | .ret _ => True
  | .throw _ => True
  | .arr _ _ k => ∀ l, Quiet s (k l)
  | .ptr k => ∀ w, Quiet s (k w)
  | .tag o k => o = s ∧ Quiet s k
  | .new _ => False

section
variable {α β : Type} {s : Nat}

theorem quiet_bind {p : RProg α} {f : α → RProg β} (hp : Quiet s p) (hf : ∀ a, Quiet s (f a)) : Quiet s (p >>= f) := by
  show Quiet s (RProg.bind p f)
  induction p with
  | ret a => exact hf a
  | throw e => trivial
  | arr _ c k ih => intro l; exact ih l (hp l)
  | ptr k ih => intro w; exact ih w (hp w)
  | tag o k ih => exact ⟨hp.1, ih hp.2⟩
  | new k ih => exact hp.elim

theorem quiet_pure (a : α) : Quiet s (pure a : RProg α) := trivial
theorem quiet_ret (a : α) : Quiet s (.ret a : RProg α) := trivial
theorem quiet_map {p : RProg α} (f : α → β) (hp : Quiet s p) : Quiet s (f <$> p) := quiet_bind hp fun _ => trivial
theorem quiet_r32 : Quiet s r32 := fun _ => trivial
theorem quiet_r64 : Quiet s r64 := fun _ => trivial
theorem quiet_r32s (n) : Quiet s (r32s n) := fun _ => trivial
theorem quiet_r64s (n) : Quiet s (r64s n) := fun _ => trivial
theorem quiet_r8s (n) : Quiet s (r8s n) := fun _ => trivial
theorem quiet_rPtr : Quiet s rPtr := fun _ => trivial
theorem quiet_rTag : Quiet s (rTag s) := ⟨rfl, trivial⟩
theorem quiet_ite {c : Prop} [Decidable c] {p q : RProg α} (hp : Quiet s p) (hq : Quiet s q) : Quiet s (if c then p else q) := by
  split <;> assumption
theorem quiet_throw {e : Err} : Quiet s (.throw e : RProg α) := trivial
theorem quiet_rIf {c : Bool} {p : RProg α} {d : α} (hp : Quiet s p) : Quiet s (rIf c p d) := by
  unfold rIf; split
  · exact hp
  · trivial
theorem quiet_rRepeat {p : RProg α} (hp : Quiet s p) : ∀ n, Quiet s (rRepeat n p)
  | 0 => trivial
  | n+1 => quiet_bind hp fun _ => quiet_bind (quiet_rRepeat hp n) fun _ => trivial
theorem quiet_rStr : Quiet s rStr := quiet_bind quiet_r32 fun _ => quiet_ite quiet_throw (quiet_r8s _)
theorem quiet_rCount : Quiet s rCount := quiet_bind quiet_r32 fun _ => quiet_ite quiet_throw trivial
theorem quiet_rSized {p : RProg α} (hp : Quiet s p) : Quiet s (rSized p) := quiet_bind quiet_rCount fun _ => quiet_rRepeat hp _
theorem quiet_rFor {p : RProg α} (hp : Quiet s p) : Quiet s (rFor p) := quiet_bind quiet_r32 fun _ => quiet_rRepeat hp _
theorem quiet_rVec32 (old) : Quiet s (rVec32 old) := quiet_bind quiet_r32 fun _ => quiet_ite (quiet_r32s _) trivial
theorem quiet_rVec64 (old) : Quiet s (rVec64 old) := quiet_bind quiet_r32 fun _ => quiet_ite (quiet_r64s _) trivial
theorem quiet_rVec16 (old) : Quiet s (rVec16 old) := quiet_bind quiet_r32 fun _ => quiet_ite (fun _ => trivial) trivial
theorem quiet_rVecStr (old) : Quiet s (rVecStr old) := quiet_bind quiet_r32 fun _ => quiet_ite (quiet_rRepeat quiet_rStr _) trivial
theorem quiet_rDummy (n) : Quiet s (rDummy n) := fun l => by
  show Quiet s (if _ then _ else _)
  exact quiet_ite trivial trivial

/-! ## Making objects -/

/-- All results `a` of the program, when it starts with `n` as the next address and ends with `n'`, have the property `Q a n'`, and only addresses from `lo` on
that have been given out become targets of pointers. -/
def Wp (lo : Nat) (Q : α → Nat → Prop) : RProg α → Nat → Prop
  | .ret a, n => Q a n
  | .throw _, _ => True
  | .arr _ _ k, n => ∀ l, Wp lo Q (k l) n
  | .ptr k, n => ∀ w, Wp lo Q (k w) n
  | .tag o k, n => (lo ≤ o ∧ o < n) ∧ Wp lo Q k n
  | .new k, n => Wp lo Q (k n) (n + 1)

theorem wp_bind {lo n : Nat} {Q : β → Nat → Prop} {p : RProg α} {f : α → RProg β} (h : Wp lo (fun a n' => Wp lo Q (f a) n') p n) : Wp lo Q (p >>= f) n := by
  show Wp lo Q (RProg.bind p f) n
  induction p generalizing n with
  | ret a => exact h
  | throw e => trivial
  | arr _ c k ih => intro l; exact ih l (h l)
  | ptr k ih => intro w; exact ih w (h w)
  | tag o k ih => exact ⟨h.1, ih h.2⟩
  | new k ih => exact ih _ h

theorem wp_mono {lo n : Nat} {Q Q' : α → Nat → Prop} {p : RProg α} (h : Wp lo Q p n) (hq : ∀ a n', n ≤ n' → Q a n' → Q' a n') : Wp lo Q' p n := by
  induction p generalizing n with
  | ret a => exact hq a n (Nat.le_refl _) h
  | throw e => trivial
  | arr _ c k ih => intro l; exact ih l (h l) hq
  | ptr k ih => intro w; exact ih w (h w) hq
  | tag o k ih => exact ⟨h.1, ih h.2 hq⟩
  | new k ih => exact ih _ h fun a n' hn => hq a n' (by omega)

theorem wp_quiet {lo n : Nat} {p : RProg α} (h : Quiet s p) (hl : lo ≤ s) (hs : s < n) : Wp lo (fun _ n' => n' = n) p n := by
  induction p with
  | ret a => rfl
  | throw e => trivial
  | arr _ c k ih => intro l; exact ih l (h l)
  | ptr k ih => intro w; exact ih w (h w)
  | tag o k ih => exact ⟨by rw [h.1]; exact ⟨hl, hs⟩, ih h.2⟩
  | new k ih => exact h.elim

/-- A program that makes no objects, and then another one. -/
theorem wp_then {lo n : Nat} {Q : β → Nat → Prop} {p : RProg α} {f : α → RProg β} (h : Quiet s p) (hl : lo ≤ s) (hs : s < n) (hf : ∀ a, Wp lo Q (f a) n) : Wp lo Q (p >>= f) n :=
  wp_bind (wp_mono (wp_quiet h hl hs) fun a n' _ hn => by rw [hn]; exact hf a)

theorem wp_asFailure {lo n : Nat} {Q : α → Nat → Prop} {p : RProg α} (h : Wp lo Q p n) : Wp lo Q p.asFailure n := by
  induction p generalizing n with
  | ret a => exact h
  | throw e => trivial
  | arr _ c k ih => intro l; exact ih l (h l)
  | ptr k ih => intro w; exact ih w (h w)
  | tag o k ih => exact ⟨h.1, ih h.2⟩
  | new k ih => exact ih _ h

/-- The addresses from `n` up to `n'` are those given, in some order. -/
def Fills (l : List Nat) (n n' : Nat) : Prop := n ≤ n' ∧ l.Perm (List.range' n (n' - n))

theorem fills_nil (n : Nat) : Fills [] n n := ⟨Nat.le_refl _, by simp⟩

theorem Fills.append {l l' : List Nat} {n m k : Nat} (h : Fills l n m) (h' : Fills l' m k) : Fills (l ++ l') n k := by
  refine ⟨Nat.le_trans h.1 h'.1, (h.2.append h'.2).trans ?_⟩
  have h1 := h.1
  have h2 := h'.1
  have : List.range' n (k - n) = List.range' n (m - n) ++ List.range' (n + 1 * (m - n)) (k - m) := by
    rw [List.range'_append]; congr 1; omega
  rw [this, show n + 1 * (m - n) = m by omega]

theorem fills_new (n : Nat) : Fills [n] n (n + 1) := ⟨by omega, by simp⟩

theorem wp_rRepeat {lo : Nat} {own : α → List Nat} {p : RProg α} (h : ∀ n, s < n → Wp lo (fun a n' => Fills (own a) n n') p n) : ∀ k n, s < n →
    Wp lo (fun l n' => Fills (l.flatMap own) n n') (rRepeat k p) n
  | 0, n, _ => fills_nil n
  | k+1, n, hn => by
    refine wp_bind (wp_mono (h n hn) fun a m hm ha => wp_bind (wp_mono (wp_rRepeat h k m (by omega)) fun l m' _ hl => ?_))
    exact ha.append hl

theorem wp_run {lo : Nat} {Q : α → Nat → Prop} {p : RProg α} {d : RDev} (h : Wp lo Q p d.next) (ht : ∀ x ∈ d.pointedAt, lo ≤ x.2 ∧ x.2 < d.next) {v} (hv : p.run d = .ok v) :
    Q v.1 v.2.next ∧ d.next ≤ v.2.next ∧ ∀ x ∈ v.2.pointedAt, lo ≤ x.2 ∧ x.2 < v.2.next := by
  have hd : ∀ {d : RDev} {a b vs d'}, d.data a b = .ok (vs, d') → d'.next = d.next ∧ d'.pointedAt = d.pointedAt := by
    intro d a b vs d' h
    unfold RDev.data at h
    split at h
    · cases h
    · cases h; exact ⟨rfl, rfl⟩
  have hi : ∀ k v (m : List (Nat × Nat)), ∀ x ∈ mapInsert k v m, x = (k, v) ∨ x ∈ m := by
    intro k v m
    induction m with
    | nil => intro x hx; exact Or.inl (by simpa [mapInsert] using hx)
    | cons y m ih =>
      intro x hx
      unfold mapInsert at hx
      split at hx
      · rcases List.mem_cons.1 hx with h | h
        · exact Or.inl h
        · exact Or.inr h
      · split at hx
        · exact Or.inr hx
        · rcases List.mem_cons.1 hx with h | h
          · exact Or.inr (by rw [h]; exact List.mem_cons_self)
          · rcases ih x h with h | h
            · exact Or.inl h
            · exact Or.inr (List.mem_cons_of_mem _ h)
  induction p generalizing d with
  | ret a => cases hv; exact ⟨h, Nat.le_refl _, ht⟩
  | throw e => cases hv
  | arr _ c k ih =>
    unfold RProg.run at hv
    split at hv
    · cases hv
    · rename_i vs d' he
      obtain ⟨h1, h2⟩ := hd he
      have := ih vs (d := d') (by rw [h1]; exact h vs) (by rw [h1, h2]; exact ht) hv
      rw [h1] at this; exact this
  | ptr k ih =>
    unfold RProg.run at hv
    split at hv
    · cases hv
    · rename_i vs d' he
      obtain ⟨h1, h2⟩ := hd he
      simp only at hv
      have key : ∀ d'' : RDev, d''.next = d.next → d''.pointedAt = d.pointedAt → (k (vs.headD 0)).run d'' = .ok v →
          Q v.1 v.2.next ∧ d.next ≤ v.2.next ∧ ∀ x ∈ v.2.pointedAt, lo ≤ x.2 ∧ x.2 < v.2.next := by
        intro d'' e1 e2 hv
        have := ih (vs.headD 0) (d := d'') (by rw [e1]; exact h _) (by rw [e1, e2]; exact ht) hv
        rw [e1] at this; exact this
      refine key _ ?_ ?_ hv
      · simp only; split <;> exact h1
      · simp only; split <;> exact h2
  | tag o k ih =>
    unfold RProg.run at hv
    split at hv
    · cases hv
    · rename_i vs d' he
      obtain ⟨h1, h2⟩ := hd he
      simp only at hv
      by_cases hm : vs.headD 0 = 0xffffffff
      · rw [if_pos hm] at hv
        have := ih (d := d') (by rw [h1]; exact h.2) (by rw [h1, h2]; exact ht) hv
        rw [h1] at this; exact this
      · rw [if_neg hm] at hv
        have := ih (d := { d' with pointedAt := mapInsert (vs.headD 0) o d'.pointedAt }) (by show Wp lo Q k d'.next; rw [h1]; exact h.2) ?_ hv
        · refine ⟨this.1, ?_, this.2.2⟩
          have h3 := this.2.1
          change d'.next ≤ _ at h3
          rw [h1] at h3; exact h3
        · intro x hx
          show lo ≤ x.2 ∧ x.2 < d'.next
          rw [h1]
          rcases hi _ _ _ x hx with rfl | hx
          · exact h.1
          · rw [h2] at hx; exact ht x hx
  | new k ih =>
    have := ih d.next (d := { d with next := d.next + 1 }) h (fun x hx => ⟨(ht x hx).1, Nat.lt_succ_of_lt (ht x hx).2⟩) hv
    exact ⟨this.1, by have := this.2.1; simp only at this; omega, this.2.2⟩

end

attribute [irreducible] Quiet

/-- Proves that a program is quiet, call by call. -/
macro "quiet" : tactic => `(tactic| with_reducible repeat' first
  | exact quiet_r32 | exact quiet_r64 | exact quiet_r32s _ | exact quiet_r64s _ | exact quiet_r8s _ | exact quiet_rPtr | exact quiet_rTag
  | exact quiet_rStr | exact quiet_rCount | exact quiet_rVec32 _ | exact quiet_rVec64 _ | exact quiet_rVec16 _ | exact quiet_rVecStr _ | exact quiet_rDummy _
  | exact quiet_pure _ | exact quiet_ret _ | assumption
  | exact quiet_throw
  | apply quiet_rIf | apply quiet_rSized | apply quiet_rFor | apply quiet_rRepeat | apply quiet_map
  | (refine quiet_bind ?_ fun _ => ?_) | (refine quiet_ite ?_ ?_))

theorem quiet_params (s old) : Quiet s (Params.read old) := by
  have hm : ∀ {α : Type} (r : RProg α) (old), Quiet s r → Quiet s (readMap r old) := by
    intro α r old hr
    unfold readMap readEntry
    quiet
  unfold Params.read
  have h1 := fun old => hm r32 old quiet_r32
  have h2 := fun old => hm rStr old quiet_rStr
  refine quiet_bind (h1 _) fun _ => quiet_bind (h1 _) fun _ => quiet_bind (h2 _) fun _ => quiet_pure _

theorem quiet_states (s v) : ∀ n l, Quiet s (readStates v n l)
  | 0, _ => quiet_ret _
  | n+1, l => by
    unfold readStates
    refine quiet_bind (by unfold TrackState.read; quiet) fun s => ?_
    split
    · exact quiet_throw
    · exact quiet_states _ v n _

theorem quiet_pidData (s) : Quiet s Pid.readData := by unfold Pid.readData; quiet

theorem quiet_head (s std k v) : Quiet s (readHead std k v) := by
  have := quiet_params s {}
  unfold readHead
  quiet

theorem quiet_obj (c v self) (k : Kind) (hk : k ≠ .recoParticle) : Quiet self (readObj c v self k) := by
  have h1 : Quiet self (Track.read c v self) := by
    have := fun n => quiet_states self v n []
    unfold Track.read
    refine quiet_bind quiet_r32 fun _ => quiet_bind (quiet_rIf quiet_r32) fun _ => quiet_bind (this _) fun _ => ?_
    quiet
  have h2 : Quiet self (Cluster.read c v self) := by
    have := quiet_pidData self
    unfold Cluster.read
    quiet
  cases k <;> unfold readObj <;> apply quiet_map
  · unfold MCParticle.read; quiet
  · unfold SimCalHit.read SimCont.read; quiet
  · unfold RawCalHit.read; quiet
  · unfold CalHit.read; quiet
  · unfold SimTrackerHit.read; quiet
  · unfold TPCHit.read; quiet
  · unfold TrackerRawData.read; quiet
  · unfold TrackerData.read; quiet
  · unfold TrackerPulse.read; quiet
  · unfold TrackerHit.read; quiet
  · unfold TrackerHitPlane.read; quiet
  · unfold TrackerHitZCylinder.read; quiet
  · exact h1
  · exact h2
  · exact (hk rfl).elim
  · unfold Relation.read; quiet
  · unfold Vertex.read; quiet
  · unfold vecRead; quiet
  · unfold vecRead; quiet
  · unfold vecRead; quiet
  · unfold Generic.read; quiet


/-! ## Elements -/

theorem wp_pid {lo n : Nat} (hl : lo ≤ n) : Wp lo (fun a n' => Fills [a.addr] n n') Pid.read n := by
  unfold Pid.read
  refine wp_bind ?_
  show Wp lo _ (_ >>= _) (n + 1)
  refine wp_then (quiet_pidData n) hl (by omega) fun p => wp_then quiet_rTag hl (by omega) fun _ => ?_
  exact fills_new n

theorem wp_pidOld {lo n : Nat} (hl : lo ≤ n) : Wp lo (fun a n' => Fills [a.addr] n n') Pid.readOld n := by
  unfold Pid.readOld
  refine wp_bind ?_
  show Wp lo _ (_ >>= _) (n + 1)
  have h1 : Quiet n r32 := quiet_r32
  refine wp_then h1 hl (by omega) fun _ => wp_then h1 hl (by omega) fun _ => wp_then h1 hl (by omega) fun _ => wp_then (quiet_rFor h1) hl (by omega) fun _ => ?_
  exact fills_new n

theorem addPids_perm (std : Std Pid) (hs : ∀ l, (std.sort l).Perm l) (l acc : List Pid) : (l.foldl (addPid std) acc).Perm (acc ++ l) := by
  induction l generalizing acc with
  | nil => simp
  | cons p l ih =>
    rw [List.foldl_cons]
    refine (ih _).trans ?_
    unfold addPid
    refine ((hs _).append_right _).trans ?_
    simp

theorem wp_reco {lo n self : Nat} (c v) (hs : ∀ l, (c.std.sort l).Perm l) (hl : lo ≤ self) (hn : self < n) :
    Wp lo (fun o n' => Fills (o.pids.map (·.addr)) n n') (RecoParticle.read c v self) n := by
  have hf : ∀ l : List Pid, l.flatMap (fun a => [a.addr]) = l.map (·.addr) := fun l => by induction l <;> simp_all
  have pids : ∀ (p : RProg Pid), (∀ n, self < n → Wp lo (fun a n' => Fills [a.addr] n n') p n) → ∀ n, self < n →
      Wp lo (fun (l : List Pid) n' => Fills ((l.foldl (addPid c.std) []).map (·.addr)) n n') (rFor p) n := by
    intro p hp n hn
    unfold rFor
    refine wp_then (s := self) quiet_r32 hl hn fun k => ?_
    refine wp_mono (wp_rRepeat hp _ n hn) fun l n' _ h => ⟨h.1, ?_⟩
    refine List.Perm.trans ?_ h.2
    have := (addPids_perm c.std hs l []).map (·.addr)
    rw [List.nil_append] at this
    rw [hf]
    exact this
  have hw : Quiet self rWeighted := by unfold rWeighted; quiet
  unfold RecoParticle.read
  by_cases hv : (!newer v 1 2) = true
  · rw [if_pos hv]
    unfold RecoParticle.readOld
    refine wp_then (s := self) quiet_r32 hl hn fun _ => wp_then (s := self) (quiet_r64s _) hl hn fun _ => wp_then (s := self) quiet_r64 hl hn fun _ =>
      wp_then (s := self) (quiet_r32s _) hl hn fun _ => wp_then (s := self) quiet_r64 hl hn fun _ => wp_then (s := self) quiet_r32 hl hn fun _ =>
      wp_then (s := self) (quiet_r32s _) hl hn fun _ => wp_bind (wp_mono (pids _ (fun n h => wp_pidOld (by omega)) n hn) fun l n' hn' hf => ?_)
    have hn'' : self < n' := by omega
    refine wp_then hw hl hn'' fun _ => wp_then hw hl hn'' fun _ => wp_then hw hl hn'' fun _ => wp_then (s := self) quiet_r32 hl hn'' fun _ =>
      wp_then (quiet_rDummy _) hl hn'' fun _ => wp_then (quiet_rDummy _) hl hn'' fun _ => wp_then quiet_rTag hl hn'' fun _ => ?_
    exact hf
  · rw [if_neg hv]
    refine wp_then (s := self) quiet_r32 hl hn fun _ => wp_then (s := self) (quiet_r32s _) hl hn fun _ => wp_then (s := self) quiet_r32 hl hn fun _ =>
      wp_then (s := self) (quiet_r32s _) hl hn fun _ => wp_then (s := self) quiet_r32 hl hn fun _ => wp_then (s := self) quiet_r32 hl hn fun _ =>
      wp_then (s := self) (quiet_r32s _) hl hn fun _ => wp_bind (wp_mono (pids _ (fun n h => wp_pid (by omega)) n hn) fun l n' hn' hf => ?_)
    have hn'' : self < n' := by omega
    refine wp_then (s := self) quiet_rPtr hl hn'' fun _ => wp_then (s := self) quiet_r32 hl hn'' fun _ => wp_then (s := self) (quiet_rSized quiet_rPtr) hl hn'' fun _ =>
      wp_then (s := self) (quiet_rSized quiet_rPtr) hl hn'' fun _ => wp_then (s := self) (quiet_rSized quiet_rPtr) hl hn'' fun _ =>
      wp_then (s := self) (quiet_rIf quiet_rPtr) hl hn'' fun _ => wp_then quiet_rTag hl hn'' fun _ => ?_
    exact hf

theorem gives_class (c v self) (k : Kind) : Gives (fun o => (classOf o).2 = k) (readObj c v self k) := by
  cases k <;> unfold readObj <;> exact gives_any fun p => rfl

/-- What is made for an object besides the object itself. -/
theorem wp_obj {lo n self : Nat} (c v) (k : Kind) (hs : ∀ l, (c.std.sort l).Perm l) (hl : lo ≤ self) (hn : self < n) :
    Wp lo (fun o n' => Fills (pidAddrsOf o) n n') (readObj c v self k) n := by
  by_cases hk : k = .recoParticle
  · subst hk
    unfold readObj
    exact wp_bind (wp_mono (wp_reco c v hs hl hn) fun o n' _ h => h)
  · have hq := wp_quiet (quiet_obj c v self k hk) hl hn
    have hg := gives_class c v self k
    have : ∀ (p : RProg Obj) n, Gives (fun o => (classOf o).2 = k) p → Wp lo (fun _ n' => n' = n) p n → Quiet self p → Wp lo (fun o n' => Fills (pidAddrsOf o) n n') p n := by
      intro p n hg hw hq
      induction p with
      | ret o =>
        show Fills (pidAddrsOf o) n n
        have : pidAddrsOf o = [] := by
          cases o <;> first | rfl | (exfalso; exact hk hg.symm)
        rw [this]; exact fills_nil n
      | throw e => trivial
      | arr s c k ih => unfold Quiet at hq; intro l; exact ih l (hg l) (hw l) (hq l)
      | ptr k ih => unfold Quiet at hq; intro w; exact ih w (hg w) (hw w) (hq w)
      | tag o k ih => unfold Quiet at hq; exact ⟨hw.1, ih hg hw.2 hq.2⟩
      | new k ih => unfold Quiet at hq; exact hq.elim
    exact this _ n hg hq (quiet_obj c v self k hk)

theorem wp_elem {lo n : Nat} (k : Kind) (c : Ctx) (v) (hs : ∀ l, (c.std.sort l).Perm l) (hl : lo ≤ n) : Wp lo (fun e n' => Fills (ownedBy e) n n') (readElem k c v) n := by
  unfold readElem
  refine wp_bind ?_
  show Wp lo _ (_ >>= _) (n + 1)
  refine wp_bind (wp_mono (wp_asFailure (wp_obj c v k hs hl (by omega))) fun o n' _ h => ?_)
  exact (fills_new n).append h

theorem wp_collection {lo n : Nat} (std type v) (hs : ∀ l, (std.sort l).Perm l) (hl : lo < n) :
    Wp lo (fun c n' => Fills (c.elems.flatMap ownedBy) n n') (Collection.read std type v) n := by
  unfold Collection.read
  split
  · trivial
  · rename_i k hk
    have hh : Wp lo (fun x n' => n' = n ∧ x.1.std = std) (readHead std k v) n := by
      have hq := wp_quiet (quiet_head lo std k v) (Nat.le_refl _) hl
      have hg : Gives (fun x => x.1.std = std) (readHead std k v) := by
        unfold readHead
        refine gives_any fun _ => ?_
        simp only
        split <;> (repeat (refine gives_any fun _ => ?_)) <;> rfl
      have : ∀ {α : Type} (P : α → Prop) (p : RProg α) m, Gives P p → Wp lo (fun _ n' => n' = n) p m → Wp lo (fun x n' => n' = n ∧ P x) p m := by
        intro α P p m hg hw
        induction p generalizing m with
        | ret a => exact ⟨hw, hg⟩
        | throw e => trivial
        | arr s c k ih => intro l; exact ih l _ (hg l) (hw l)
        | ptr k ih => intro w; exact ih w _ (hg w) (hw w)
        | tag o k ih => exact ⟨hw.1, ih _ hg hw.2⟩
        | new k ih => exact ih _ _ (hg _) hw
      exact this _ _ _ hg hq
    refine wp_bind (wp_mono hh ?_)
    rintro ⟨c, params⟩ n' _ ⟨rfl, hc⟩
    simp only at hc
    refine wp_then (s := lo) quiet_rCount (Nat.le_refl _) hl fun m => ?_
    refine wp_bind (wp_mono (wp_rRepeat (s := lo) (own := ownedBy) (fun n hn => ?_) m n' hl) fun l n'' _ h => h)
    split
    · exact wp_then (s := lo) quiet_rPtr (Nat.le_refl _) hn fun a => fills_nil n
    · exact wp_elem k c v (by rw [hc]; exact hs) (by omega)

end Lcio
