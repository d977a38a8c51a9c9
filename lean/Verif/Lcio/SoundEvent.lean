import Verif.Lcio.SoundLemmas
import Verif.Lcio.MemoryLemmas
/-
Events that have been read from any data are sound. (C99)
-/
namespace Lcio
open Sio Spec

/-! ## Records -/

theorem loop_fills (rec : List Byte) (decs : List (RBlock Collection))
    (hd : ∀ b ∈ decs, ∀ v n, 0 < n → Wp 0 (fun c n' => Fills (c.elems.flatMap ownedBy) n n') (b.read v) n) : ∀ fuel p (dev : RDev) res,
    readBlocksLoop rec decs fuel p dev = .ok res → 0 < dev.next → (∀ x ∈ dev.pointedAt, x.2 < dev.next) →
    Fills (objectsIn res.1) dev.next res.2.next ∧ ∀ x ∈ res.2.pointedAt, x.2 < res.2.next := by
  intro fuel
  induction fuel with
  | zero =>
    intro p dev res h hn ht
    unfold readBlocksLoop at h
    split at h <;> cases h
    exact ⟨fills_nil _, ht⟩
  | succ fuel ih =>
    intro p dev res h hn ht
    unfold readBlocksLoop at h
    split at h
    · cases h; exact ⟨fills_nil _, ht⟩
    · simp only [bind, Except.bind] at h
      cases hx : extractBlock rec p with
      | error e => rw [hx] at h; cases h
      | ok v =>
        obtain ⟨info, span⟩ := v
        rw [hx] at h
        simp only at h
        cases hf : decs.find? (fun b => b.name == info.name) with
        | none => rw [hf] at h; exact ih _ _ _ h hn ht
        | some b =>
          rw [hf] at h
          simp only at h
          have hb := List.mem_of_find?_eq_some hf
          unfold RDev.seek at h
          simp only at h
          by_cases hs : info.headerLength > span.length
          · rw [if_pos hs] at h; cases h
          · rw [if_neg hs] at h
            simp only at h
            cases hr : (b.read info.version).run { dev with buf := span, cur := info.headerLength } with
            | error e => rw [hr] at h; cases h
            | ok v =>
              rw [hr] at h
              simp only [rethrowing] at h
              obtain ⟨w1, w2, w3⟩ := wp_run (d := { dev with buf := span, cur := info.headerLength }) (hd b hb info.version dev.next hn)
                (fun x hx => ⟨Nat.zero_le _, ht x hx⟩) hr
              simp only at w2
              cases hl : readBlocksLoop rec decs fuel info.recordEnd v.2 with
              | error e => rw [hl] at h; cases h
              | ok w =>
                rw [hl] at h
                cases h
                obtain ⟨g1, g2⟩ := ih _ _ _ hl (by omega) fun x hx => (w3 x hx).2
                refine ⟨?_, g2⟩
                show Fills (objectsIn ((info.name, v.1) :: w.1)) _ _
                unfold objectsIn
                rw [List.flatMap_cons]
                exact w1.append g1

/-! ## What is filled into the event -/

theorem mapPtr_owned (f : Nat → Nat) (e : Elem) : ownedBy (e.mapPtr f) = ownedBy e := by
  unfold Elem.mapPtr ownedBy
  cases he : e.obj with
  | none => simp
  | some o => cases o <;> rfl

theorem mapPtr_class (f : Nat → Nat) (o : Obj) : classOf (o.mapPtr f) = classOf o := by
  cases o <;> rfl

theorem mapPtr_pointers (f : Nat → Nat) (o : Obj) : pointersOf (o.mapPtr f) = (pointersOf o).map f := by
  cases o <;> simp [Obj.mapPtr, pointersOf, MCParticle.mapPtr, SimCalHit.mapPtr, SimCont.mapPtr, CalHit.mapPtr, SimTrackerHit.mapPtr, TrackerPulse.mapPtr, TrackerHit.mapPtr,
    TrackerHitPlane.mapPtr, TrackerHitZCylinder.mapPtr, Track.mapPtr, Cluster.mapPtr, RecoParticle.mapPtr, Relation.mapPtr, Vertex.mapPtr, Function.comp_def]

theorem mapPtr_held (f : Nat → Nat) (e : Elem) : heldBy (e.mapPtr f) = (heldBy e).map f := by
  unfold Elem.mapPtr heldBy
  cases he : e.obj with
  | none => simp
  | some o => exact mapPtr_pointers f o

theorem flatMap_mapPtr {β : Type} (g : Elem → List β) (f : Nat → Nat) (c : Collection) : (c.mapPtr f).elems.flatMap g = c.elems.flatMap fun e => g (e.mapPtr f) := by
  unfold Collection.mapPtr
  simp [List.flatMap_map]

theorem objectsIn_mapPtr (f : Nat → Nat) (res : List (Str × Collection)) : objectsIn (res.map fun c => (c.1, c.2.mapPtr f)) = objectsIn res := by
  unfold objectsIn
  rw [List.flatMap_map]
  congr 1
  funext c
  rw [flatMap_mapPtr]
  congr 1
  funext e
  exact mapPtr_owned f e

/-- A collection that has just been read, with objects of the right class. -/
def Proper (c : Collection) : Prop :=
  ∀ e ∈ c.elems, (∀ o, e.obj = some o → (classOf o).1 = c.type) ∧ (e.obj = none ↔ c.flag.getLsbD 18 = true)

theorem kindOf_inj {t t' : Str} {k : Kind} (h : kindOf t = some k) (h' : kindOf t' = some k) : t = t' := by
  have key : ∀ {t : Str} {k : Kind}, kindOf t = some k → (t, k) ∈ handlers := by
    intro t k h
    unfold kindOf at h
    obtain ⟨⟨t1, k1⟩, hf, hk⟩ := Option.map_eq_some_iff.1 h
    have h1 := List.mem_of_find?_eq_some hf
    have h2 : t1 = t := by simpa using List.find?_some hf
    subst h2
    simp only at hk
    subst hk
    exact h1
  have h1 := key h
  have h2 := key h'
  have hall : ∀ x ∈ handlers, ∀ y ∈ handlers, x.2 = y.2 → x.1 = y.1 := by decide
  exact hall _ h1 _ h2 rfl

theorem kind_class (o : Obj) : kindOf (classOf o).1 = some (classOf o).2 := by cases o <;> (simp only [classOf]; decide)

theorem gives_proper (std type v) : Gives Proper (Collection.read std type v) := by
  unfold Collection.read
  split
  · trivial
  · rename_i k hk
    refine gives_any fun p => ?_
    obtain ⟨c, params⟩ := p
    refine gives_any fun n => ?_
    refine gives_bind (P := fun l : List Elem => ∀ e ∈ l, (∀ o, e.obj = some o → (classOf o).1 = type) ∧ (e.obj = none ↔ c.bit 18 = true)) (gives_repeat ?_ n) fun elems he => he
    split
    · rename_i hb
      exact gives_any fun a => ⟨fun o ho => (nomatch ho), fun _ => hb, fun _ => rfl⟩
    · rename_i hb
      unfold readElem
      refine gives_any fun self => gives_bind (gives_asFailure (gives_class c v self k)) fun o ho => ⟨?_, fun h => (nomatch h), fun h => absurd h hb⟩
      intro p hp
      cases hp
      exact kindOf_inj (by rw [kind_class, ho]) hk

theorem proper_mapPtr (f : Nat → Nat) {c : Collection} (h : Proper c) : Proper (c.mapPtr f) := by
  intro e he
  obtain ⟨e, hm, rfl⟩ := List.mem_map.1 he
  obtain ⟨h1, h2⟩ := h e hm
  show (∀ o, (e.mapPtr f).obj = some o → (classOf o).1 = c.type) ∧ ((e.mapPtr f).obj = none ↔ c.flag.getLsbD 18 = true)
  unfold Elem.mapPtr
  cases ho : e.obj with
  | none =>
    simp only [ho] at h2 ⊢
    exact ⟨fun o h => (nomatch h), h2⟩
  | some o =>
    simp only [ho] at h2 ⊢
    refine ⟨fun o' h => ?_, by simpa using h2⟩
    cases h
    rw [mapPtr_class]
    exact h1 o ho

theorem filled_mem {heads : List (Str × ColHead)} {res : List (Str × Collection)} {c} (h : c ∈ filledCols heads res) : (∃ r ∈ res, c.2 = r.2) ∨ c.2.elems = [] := by
  unfold filledCols at h
  obtain ⟨x, _, rfl⟩ := List.mem_map.1 h
  cases hf : res.find? fun r => r.1 == x.1 with
  | none => exact Or.inr (by simp)
  | some r => exact Or.inl ⟨r, List.mem_of_find?_eq_some hf, by simp⟩

theorem filled_objects (heads : List (Str × ColHead)) (hn : (heads.map (·.1)).Nodup) (res : List (Str × Collection)) :
    ∃ lost, (objectsIn (filledCols heads res) ++ lost).Perm (objectsIn res) ∧
      ((res.map (·.1)).Nodup → (∀ r ∈ res, r.1 ∈ heads.map (·.1)) → lost = []) := by
  induction heads generalizing res with
  | nil =>
    refine ⟨objectsIn res, by simp [filledCols, objectsIn], fun _ h => ?_⟩
    cases res with
    | nil => rfl
    | cons r res => exact absurd (h r List.mem_cons_self) (by simp)
  | cons x heads ih =>
    rw [List.map_cons, List.nodup_cons] at hn
    cases hf : res.find? fun r => r.1 == x.1 with
    | none =>
      obtain ⟨lost, h1, h2⟩ := ih hn.2 res
      refine ⟨lost, ?_, fun hn' hall => h2 hn' fun r hr => ?_⟩
      · have : objectsIn (filledCols (x :: heads) res) = objectsIn (filledCols heads res) := by
          simp [filledCols, objectsIn, hf]
        rw [this]; exact h1
      · have := hall r hr
        rw [List.map_cons, List.mem_cons] at this
        rcases this with h | h
        · have := List.find?_eq_none.1 hf r hr
          simp [h] at this
        · exact h
    | some r =>
      obtain ⟨hr, l1, l2, rfl, hl1⟩ := List.find?_eq_some_iff_append.1 hf
      have hr : r.1 = x.1 := by simpa using hr
      obtain ⟨lost, h1, h2⟩ := ih hn.2 (l1 ++ l2)
      have hsame : filledCols heads (l1 ++ r :: l2) = filledCols heads (l1 ++ l2) := by
        unfold filledCols
        refine List.map_congr_left fun y hy => ?_
        have hne : (r.1 == y.1) = false := by
          rw [hr]
          simp only [beq_eq_false_iff_ne, ne_eq]
          intro h
          exact hn.1 (h ▸ List.mem_map_of_mem hy)
        have : (l1 ++ r :: l2).find? (fun r => r.1 == y.1) = (l1 ++ l2).find? (fun r => r.1 == y.1) := by
          rw [List.find?_append, List.find?_append, List.find?_cons, hne]
        simp only [this]
      refine ⟨lost, ?_, fun hn' hall => ?_⟩
      · have e1 : objectsIn (filledCols (x :: heads) (l1 ++ r :: l2)) = r.2.elems.flatMap ownedBy ++ objectsIn (filledCols heads (l1 ++ l2)) := by
          rw [← hsame]
          have : filledCols (x :: heads) (l1 ++ r :: l2) = (x.1, r.2) :: filledCols heads (l1 ++ r :: l2) := by
            unfold filledCols
            rw [List.map_cons, hf]
          rw [this]
          unfold objectsIn
          rw [List.flatMap_cons]
        have e2 : (objectsIn (l1 ++ r :: l2)).Perm (r.2.elems.flatMap ownedBy ++ objectsIn (l1 ++ l2)) := by
          unfold objectsIn
          rw [List.flatMap_append, List.flatMap_cons, List.flatMap_append, ← List.append_assoc, ← List.append_assoc]
          exact List.perm_append_comm.append_right _
        rw [e1, List.append_assoc]
        exact (h1.append_left _).trans e2.symm
      · refine h2 ?_ fun r' hr' => ?_
        · have : ((l1 ++ l2).map (·.1)).Sublist ((l1 ++ r :: l2).map (·.1)) := (List.Sublist.append_left (List.sublist_cons_self _ _) _).map _
          exact hn'.sublist this
        · have hm := hall r' (by rw [List.mem_append] at hr' ⊢; exact hr'.imp id fun h => List.mem_cons_of_mem _ h)
          rw [List.map_cons, List.mem_cons] at hm
          rcases hm with h | h
          · exfalso
            rw [List.map_append, List.map_cons] at hn'
            have h3 := (List.nodup_append.1 hn')
            have h4 := (List.nodup_cons.1 h3.2.1).1
            rcases List.mem_append.1 hr' with hr' | hr'
            · exact h3.2.2 r'.1 (List.mem_map_of_mem hr') r.1 List.mem_cons_self (by rw [h, hr])
            · exact h4 (by rw [hr, ← h]; exact List.mem_map_of_mem hr')
          · exact h

theorem ordered_nodup {V : Type} {m : List (Str × V)} (h : Ordered strLt m) : (m.map (·.1)).Nodup := by
  refine List.Pairwise.map _ ?_ h
  intro a b hab he
  rw [he, strWeak.irrefl] at hab
  cases hab

theorem gives_readCols (only) : ∀ n cols, Ordered strLt cols → Gives (Ordered strLt) (readCols only n cols)
  | 0, cols, h => h
  | n+1, cols, h => by
    unfold readCols
    refine gives_any fun name => gives_any fun type => ?_
    split
    · split
      · trivial
      · rename_i cols' hc
        refine gives_readCols only n _ ?_
        unfold addCol at hc
        split at hc
        · cases hc
        · split at hc
          · cases hc
          · cases hc; exact ordered_assign _ _ _ h
    · exact gives_readCols only n _ h

theorem decodeHeader_nodup {cfg : RConfig} {data : List Byte} {hdr : EventHeader} (h : decodeHeader cfg data = .ok hdr) : (hdr.cols.map (·.1)).Nodup := by
  have hg : ∀ v, Gives (fun e : EventHeader => Ordered strLt e.cols) (EventHeader.read cfg.wanted v) := by
    intro v
    unfold EventHeader.read
    refine gives_any fun _ => gives_any fun _ => gives_any fun _ => gives_any fun _ => gives_any fun _ => gives_any fun _ =>
      gives_bind (gives_readCols _ _ _ List.Pairwise.nil) fun cols hc => ?_
    simp only
    split <;> exact gives_any fun _ => hc
  unfold decodeHeader at h
  split at h
  · cases h
  · rename_i hs ρ d hb
    have := readBlocks_gives (Q := fun _ (e : EventHeader) => Ordered strLt e.cols) data [headerDecoder cfg.wanted] (by
      intro b hb v
      rw [List.mem_singleton] at hb
      subst hb
      exact hg v) 1 hb
    cases h
    refine ordered_nodup ?_
    split
    · rename_i x e rest
      exact this (x, e) List.mem_cons_self
    · exact List.Pairwise.nil

/-- Collections as they are after the record has been read, and after parents and daughters have been restored. -/
structure Mid (objs : List Nat) (cols : List (Str × Collection)) : Prop where
  proper : ∀ c ∈ cols, Proper c.2
  objects : objectsIn cols = objs
  pointers : ∀ p ∈ pointersIn cols, p = 0 ∨ p ∈ objs

theorem gives_mono {α : Type} {P Q : α → Prop} {p : RProg α} (h : ∀ a, P a → Q a) (hp : Gives P p) : Gives Q p := by
  induction p with
  | ret a => exact h a hp
  | throw e => trivial
  | arr s c k ih => intro l; exact ih l (hp l)
  | ptr k ih => intro w; exact ih w (hp w)
  | tag o k ih => exact ih hp
  | new k ih => intro o; exact ih o (hp o)

theorem decode_mid {cfg : RConfig} (hs : ∀ l, (cfg.std.sort l).Perm l) {hdr : EventHeader} {data : List Byte} {cols}
    (hn : (hdr.cols.map (·.1)).Nodup) (ho : OnceEach cfg.std hdr data) (h : decodeCollections cfg hdr data = .ok cols) :
    (objectsIn cols).Nodup ∧ 0 ∉ objectsIn cols ∧ Mid (objectsIn cols) cols := by
  unfold decodeCollections at h
  split at h
  · cases h
  · rename_i results ρ d hb
    cases h
    have hprop : ∀ r ∈ results, Proper r.2 ∧ r.1 ∈ hdr.cols.map (·.1) :=
      readBlocks_gives (Q := fun name c => Proper c ∧ name ∈ hdr.cols.map (·.1)) data (eventDecoders cfg.std hdr.cols) (by
        intro b hb v
        obtain ⟨x, hx, rfl⟩ := List.mem_map.1 hb
        exact gives_mono (fun c hc => ⟨hc, List.mem_map_of_mem hx⟩) (gives_proper cfg.std x.2.type v)) 1 hb
    have honce := ho _ hb
    simp only at honce
    unfold readBlocks at hb
    simp only [bind, Except.bind] at hb
    cases hl : readBlocksLoop data (eventDecoders cfg.std hdr.cols) (data.length + 1) 0 { buf := [], next := 1 } with
    | error e => rw [hl] at hb; cases hb
    | ok v =>
      rw [hl] at hb
      obtain ⟨d', hd'⟩ := relocate_ok v.2
      simp only [hd'] at hb
      obtain ⟨⟨f1, f2⟩, ht⟩ := loop_fills data (eventDecoders cfg.std hdr.cols) (by
        intro b hb v n hn
        obtain ⟨x, hx, rfl⟩ := List.mem_map.1 hb
        exact wp_collection _ _ _ hs hn) _ _ _ _ hl (by simp) (by simp)
      simp only at f1 f2
      cases hb
      obtain ⟨res, dev⟩ := v
      simp only at *
      have htag : ∀ w, (if w = 0 then 0 else (mapFind w dev.pointedAt).getD 0) = 0 ∨ (if w = 0 then 0 else (mapFind w dev.pointedAt).getD 0) < dev.next := by
        intro w
        split
        · exact Or.inl rfl
        · unfold mapFind
          cases hf : dev.pointedAt.find? (fun e => e.1 == w) with
          | none => exact Or.inl rfl
          | some x => exact Or.inr (ht x (List.mem_of_find?_eq_some hf))
      generalize hρ : (fun w => if w = 0 then 0 else (mapFind w dev.pointedAt).getD 0) = ρ
      have hlt : ∀ w, ρ w = 0 ∨ ρ w < dev.next := by subst hρ; exact htag
      obtain ⟨lost, l1, l2⟩ := filled_objects hdr.cols hn (res.map fun c => (c.1, c.2.mapPtr ρ))
      have hlost : lost = [] := l2 (by rw [List.map_map]; exact honce) fun r hr => by
        obtain ⟨r0, hr0, rfl⟩ := List.mem_map.1 hr
        exact (hprop r0 hr0).2
      subst hlost
      rw [List.append_nil, objectsIn_mapPtr] at l1
      have hperm := l1.trans f2
      have hmem : ∀ p, p ∈ objectsIn (filledCols hdr.cols (res.map fun c => (c.1, c.2.mapPtr ρ))) ↔ 1 ≤ p ∧ p < dev.next := by
        intro p
        rw [hperm.mem_iff, List.mem_range'_1]
        omega
      refine ⟨hperm.nodup_iff.2 (List.nodup_range' ..), fun h0 => ?_, ?_, rfl, ?_⟩
      · have := (hmem 0).1 h0
        omega
      · intro c hc
        rcases filled_mem hc with ⟨r, hr, he⟩ | he
        · obtain ⟨r0, hr0, rfl⟩ := List.mem_map.1 hr
          rw [he]
          exact proper_mapPtr ρ (hprop r0 hr0).1
        · intro e hm
          rw [he] at hm
          cases hm
      · intro p hp
        obtain ⟨c, hc, hp⟩ := List.mem_flatMap.1 hp
        rcases filled_mem hc with ⟨r, hr, he⟩ | he
        · obtain ⟨r0, hr0, rfl⟩ := List.mem_map.1 hr
          rw [he, flatMap_mapPtr] at hp
          obtain ⟨e, _, hp⟩ := List.mem_flatMap.1 hp
          rw [mapPtr_held] at hp
          obtain ⟨w, _, rfl⟩ := List.mem_map.1 hp
          by_cases h0 : ρ w = 0
          · exact Or.inl h0
          · exact Or.inr ((hmem _).2 ⟨by omega, (hlt w).resolve_left h0⟩)
        · rw [he] at hp; cases hp

/-! ## Parents and daughters -/

theorem upd_owned (a : Nat) (f : MCParticle → MCParticle) (e : Elem) : ownedBy (e.upd a f) = ownedBy e := by
  unfold Elem.upd
  split
  · rename_i o ho
    split
    · simp [ownedBy, ho, pidAddrsOf]
    · rfl
  · rfl

theorem upd_obj (a : Nat) (f : MCParticle → MCParticle) (e : Elem) : (e.upd a f).obj = e.obj ∨ ∃ o, e.obj = some (.mcParticle o) ∧ (e.upd a f).obj = some (.mcParticle (f o)) := by
  unfold Elem.upd
  split
  · rename_i o ho
    split
    · exact Or.inr ⟨o, ho, rfl⟩
    · exact Or.inl rfl
  · exact Or.inl rfl

theorem upd_held (a m : Nat) (f : MCParticle → MCParticle) (hf : ∀ o, ∀ x ∈ (f o).parents ++ (f o).daughters, x ∈ o.parents ++ o.daughters ∨ x = m) (e : Elem) :
    ∀ p ∈ heldBy (e.upd a f), p ∈ heldBy e ∨ p = m := by
  intro p hp
  rcases upd_obj a f e with h | ⟨o, h1, h2⟩
  · unfold heldBy at hp ⊢
    rw [h, upd_addr] at hp
    exact Or.inl hp
  · unfold heldBy at hp ⊢
    rw [h2] at hp
    rw [h1]
    exact hf o p hp

theorem mid_upd {objs : List Nat} {cols : List (Str × Collection)} (h : Mid objs cols) (a m : Nat) (hm : m ∈ objs) (f : MCParticle → MCParticle)
    (hf : ∀ o, ∀ x ∈ (f o).parents ++ (f o).daughters, x ∈ o.parents ++ o.daughters ∨ x = m) : Mid objs (updParticle a f cols) := by
  refine ⟨?_, ?_, ?_⟩
  · intro c hc e he
    obtain ⟨c, hc0, rfl⟩ := List.mem_map.1 hc
    obtain ⟨e, he0, rfl⟩ := List.mem_map.1 he
    obtain ⟨p1, p2⟩ := h.proper c hc0 e he0
    rcases upd_obj a f e with h | ⟨o, h1, h2⟩
    · rw [h]; exact ⟨p1, p2⟩
    · rw [h2]
      rw [h1] at p1 p2
      refine ⟨fun o' ho' => ?_, by simpa using p2⟩
      cases ho'
      exact p1 (.mcParticle o) rfl
  · rw [← h.objects]
    unfold objectsIn updParticle
    rw [List.flatMap_map]
    congr 1
    funext c
    rw [List.flatMap_map]
    congr 1
    funext e
    exact upd_owned a f e
  · intro p hp
    obtain ⟨c, hc, hp⟩ := List.mem_flatMap.1 hp
    obtain ⟨c, hc0, rfl⟩ := List.mem_map.1 hc
    obtain ⟨e, he, hp⟩ := List.mem_flatMap.1 hp
    obtain ⟨e, he0, rfl⟩ := List.mem_map.1 he
    rcases upd_held a m f hf e p hp with hp | rfl
    · exact h.pointers p (List.mem_flatMap.2 ⟨c, hc0, List.mem_flatMap.2 ⟨e, he0, hp⟩⟩)
    · exact Or.inr hm

theorem find_mem {objs : List Nat} {cols : List (Str × Collection)} (h : Mid objs cols) {a : Nat} (hf : findParticle cols a ≠ none) : a ∈ objs := by
  obtain ⟨e, he, ha, hp⟩ := findParticle_ne_none.1 hf
  obtain ⟨c, hc, he⟩ := List.mem_flatMap.1 he
  rw [← h.objects]
  refine List.mem_flatMap.2 ⟨c, hc, List.mem_flatMap.2 ⟨e, he, ?_⟩⟩
  unfold Elem.particle at hp
  unfold ownedBy
  split at hp
  · rename_i o ho
    rw [ho, ← ha]
    exact List.mem_cons_self
  · exact absurd rfl hp

theorem mid_daughters {objs : List Nat} (m : Nat) (hm : m ∈ objs) : ∀ l {cols cols'}, Mid objs cols → pushDaughters m l cols = .ok cols' → Mid objs cols'
  | [], _, _, h, he => by cases he; exact h
  | a :: l, cols, cols', h, he => by
    unfold pushDaughters at he
    split at he
    · cases he
    · refine mid_daughters m hm l (mid_upd h a m hm _ fun o x hx => ?_) he
      simpa [or_assoc] using hx

theorem mid_parents {objs : List Nat} (m : Nat) (hm : m ∈ objs) : ∀ l {cols cols'}, Mid objs cols → pushParents m l cols = .ok cols' → Mid objs cols'
  | [], _, _, h, he => by cases he; exact h
  | a :: l, cols, cols', h, he => by
    unfold pushParents at he
    split at he
    · cases he
    · refine mid_parents m hm l (mid_upd h a m hm _ fun o x hx => ?_) he
      simp only [List.mem_append, List.mem_singleton] at hx ⊢
      rcases hx with (h | h) | h
      · exact Or.inl (Or.inl h)
      · exact Or.inr h
      · exact Or.inl (Or.inr h)

theorem mid_loop {objs : List Nat} (nD nP : Nat) : ∀ l {cols cols'}, Mid objs cols → restoreLoop nD nP l cols = .ok cols' → Mid objs cols'
  | [], _, _, h, he => by cases he; exact h
  | a :: l, cols, cols', h, he => by
    unfold restoreLoop at he
    split at he
    · cases he
    · rename_i mcp hf
      have hm : a ∈ objs := find_mem h (by rw [hf]; simp)
      split at he
      · split at he
        · cases he
        · rename_i c hc
          exact mid_loop nD nP l (mid_parents a hm _ h hc) he
      · split at he
        · split at he
          · cases he
          · rename_i c hc
            exact mid_loop nD nP l (mid_daughters a hm _ h hc) he
        · exact mid_loop nD nP l h he

theorem mid_from {objs : List Nat} : ∀ n i {cols cols'}, Mid objs cols → restoreFrom i n cols = .ok cols' → Mid objs cols'
  | 0, i, _, _, h, he => by cases he; exact h
  | n+1, i, cols, cols', h, he => by
    unfold restoreFrom at he
    split at he
    · cases he
    · rename_i c hc
      refine mid_from n (i+1) ?_ he
      unfold restoreCol at hc
      split at hc
      · cases hc; exact h
      · split at hc
        · split at hc
          · cases hc
          · exact mid_loop _ _ _ h hc
        · cases hc; exact h

theorem mid_finish {objs : List Nat} {cfg : RConfig} {e e' : EventData} (h : Mid objs e.2) (he : finishEvent cfg e = .ok e') : e'.1 = e.1 ∧ Mid objs e'.2 := by
  unfold finishEvent at he
  split at he
  · cases he
  · rename_i cols hp
    cases he
    refine ⟨rfl, ?_⟩
    unfold postProcess at hp
    split at hp
    · cases hp
    · rename_i c hc
      split at hp
      · cases hp
      · cases hp
        exact mid_from _ _ h hc

end Lcio
