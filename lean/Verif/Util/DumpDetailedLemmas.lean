import Verif.Util.DumpDetailed
import Verif.Spec.Printable
import Verif.Props.Sound
/-
Lemmas for C102: printing an event in detail.
-/
namespace Util
open Sio Lcio Spec

theorem andThen_ok (a b : Except Err Unit) : andThen a b = .ok () ↔ a = .ok () ∧ b = .ok () := by
  cases a with
  | error e => exact ⟨fun h => (nomatch h), fun h => (nomatch h.1)⟩
  | ok u => exact ⟨fun h => ⟨rfl, h⟩, fun h => h.2⟩

theorem forEach_ok {α : Type} (f : α → Except Err Unit) : ∀ l, forEach f l = .ok () ↔ ∀ x ∈ l, f x = .ok ()
  | [] => ⟨fun _ _ h => (nomatch h), fun _ => rfl⟩
  | x :: l => by
    show andThen _ _ = _ ↔ _
    rw [andThen_ok, forEach_ok f l]
    simp only [List.mem_cons, forall_eq_or_imp]

theorem works_ok {α : Type} (x : Except Err α) : works x = .ok () ↔ ∃ a, x = .ok a := by
  cases x with
  | error e => exact ⟨fun h => (nomatch h), fun ⟨_, h⟩ => (nomatch h)⟩
  | ok a => exact ⟨fun _ => ⟨a, rfl⟩, fun _ => rfl⟩

theorem castsTo_of (T : Str) (o : Obj) (h : OfClass T o) : castsTo T o = true := by
  rcases h with rfl | ⟨rfl, h⟩
  · exact Props.castsTo_class o
  · cases o <;> first
      | (simp only [classOf] at h; rcases h with h | h <;> exact absurd h (by decide))
      | (simp only [castsTo]; decide)

theorem allElems_mem {cols : List (Str × Collection)} {e : Elem} : e ∈ allElems cols ↔ ∃ c ∈ cols, e ∈ c.2.elems := by
  simp only [allElems, List.mem_flatMap]

theorem nodup_flatMap {α β : Type} {f : α → List β} : ∀ {l : List α}, (l.flatMap f).Nodup → ∀ x ∈ l, ∀ y ∈ l, ∀ b, b ∈ f x → b ∈ f y → x = y := by
  intro l
  induction l with
  | nil => intro _ x hx; cases hx
  | cons a l ih =>
    intro h x hx y hy b hbx hby
    rw [List.flatMap_cons, List.nodup_append] at h
    rcases List.mem_cons.1 hx with rfl | hx' <;> rcases List.mem_cons.1 hy with rfl | hy'
    · rfl
    · exact absurd rfl (h.2.2 b hbx b (List.mem_flatMap.2 ⟨y, hy', hby⟩))
    · exact absurd rfl (h.2.2 b hby b (List.mem_flatMap.2 ⟨x, hx', hbx⟩))
    · exact ih h.2.1 x hx' y hy' b hbx hby

theorem objectsIn_flat (cols : List (Str × Collection)) : objectsIn cols = (allElems cols).flatMap ownedBy := by
  simp only [objectsIn, allElems, List.flatMap_assoc]

theorem owned_obj {e : Elem} {o : Obj} (h : e.obj = some o) : ownedBy e = e.addr :: pidAddrsOf o := by
  simp only [ownedBy, h]

/-- The object of a sound event at an address. -/
theorem eventObject_holds {cols : List (Str × Collection)} (hs : Sound cols) {p : Nat} {o : Obj} (h : HasObject cols p o) : eventObject cols p = some o := by
  obtain ⟨c, hc, e, he, ha, ho⟩ := h
  have hm : e ∈ allElems cols := allElems_mem.2 ⟨c, hc, he⟩
  unfold eventObject
  cases hf : (allElems cols).find? fun e => e.addr == p && e.obj.isSome with
  | none =>
    have := List.find?_eq_none.1 hf e hm
    rw [ha, ho] at this
    exact absurd (by simp) this
  | some e' =>
    have h1 := List.find?_some hf
    have h2 := List.mem_of_find?_eq_some hf
    rw [Bool.and_eq_true, beq_iff_eq] at h1
    obtain ⟨o', ho'⟩ := Option.isSome_iff_exists.1 h1.2
    have : e = e' := nodup_flatMap (f := ownedBy) (objectsIn_flat cols ▸ hs.distinct) e hm e' h2 p (by rw [owned_obj ho, ha]; exact List.mem_cons_self ..)
      (by rw [owned_obj ho', h1.1]; exact List.mem_cons_self ..)
    subst this
    exact ho

theorem holds_eventObject {cols : List (Str × Collection)} {p : Nat} {o : Obj} (h : eventObject cols p = some o) : HasObject cols p o := by
  obtain ⟨e, he, ho⟩ := Option.bind_eq_some_iff.1 h
  have h1 := List.find?_some he
  rw [Bool.and_eq_true, beq_iff_eq] at h1
  obtain ⟨c, hc, hm⟩ := allElems_mem.1 (List.mem_of_find?_eq_some he)
  exact ⟨c, hc, e, hm, h1.1, ho⟩

theorem usable_of {cols : List (Str × Collection)} (hs : Sound cols) {T : Str} {p : Nat} (h : ∃ o, HasObject cols p o ∧ OfClass T o) : usable cols T p = true := by
  obtain ⟨o, ho, hc⟩ := h
  rw [usable, eventObject_holds hs ho]
  exact castsTo_of T o hc

theorem useIf_of {cols : List (Str × Collection)} (hs : Sound cols) {T : Str} {p : Nat} (h : p = 0 ∨ ∃ o, HasObject cols p o ∧ OfClass T o) : useIf (usable cols T) p = .ok () := by
  rcases h with rfl | h
  · rfl
  · rw [useIf, use, usable_of hs h]
    split <;> rfl

theorem pidAt_of {cols : List (Str × Collection)} {a : Nat} (h : ∃ p' o', HasObject cols p' (.recoParticle o') ∧ ∃ i ∈ o'.pids, i.addr = a) : pidAt cols a = true := by
  obtain ⟨p', o', ⟨c, hc, e, he, ha, ho⟩, i, hi, hia⟩ := h
  refine List.any_eq_true.2 ⟨e, allElems_mem.2 ⟨c, hc, he⟩, ?_⟩
  simp only [ho]
  exact List.any_eq_true.2 ⟨i, hi, by rw [hia]; exact beq_self_eq_true a⟩

/-- Pointers without a class. -/
theorem any_of {cols : List (Str × Collection)} (hs : Sound cols) {p : Nat} (h : p = 0 ∨ p ∈ objectsIn cols) : useIf (anyObject cols) p = .ok () := by
  rcases h with rfl | h
  · rfl
  · have : anyObject cols p = true := by
      rw [objectsIn_flat] at h
      obtain ⟨e, he, hp⟩ := List.mem_flatMap.1 h
      obtain ⟨c, hc, hm⟩ := allElems_mem.1 he
      cases ho : e.obj with
      | none => simp only [ownedBy, ho] at hp; cases hp
      | some o =>
        rw [owned_obj ho] at hp
        rcases List.mem_cons.1 hp with rfl | hp
        · rw [anyObject, eventObject_holds hs ⟨c, hc, e, hm, rfl, ho⟩]
          rfl
        · rw [anyObject, Bool.or_eq_true]
          right
          cases o with
          | recoParticle q =>
            obtain ⟨i, hi, hia⟩ := List.mem_map.1 hp
            exact pidAt_of ⟨e.addr, q, ⟨c, hc, e, hm, rfl, ho⟩, i, hi, hia⟩
          | _ => cases hp
    rw [useIf, use, this]
    split <;> rfl

theorem holds_pointers {cols : List (Str × Collection)} {p : Nat} {o : Obj} (h : HasObject cols p o) {q : Nat} (hq : q ∈ pointersOf o) : q ∈ pointersIn cols := by
  obtain ⟨c, hc, e, he, ha, ho⟩ := h
  exact List.mem_flatMap.2 ⟨c, hc, List.mem_flatMap.2 ⟨e, he, by simp only [heldBy, ho]; exact hq⟩⟩

/-! ## Collections -/

theorem getVal_ok {cols : List (Str × Collection)} (hp : Printable cols) {c : Str × Collection} (hc : c ∈ cols) (key : Str) :
    getVal [] c.2.params.strs key = .ok [] ∧ omFind strLt key c.2.params.strs = none ∨ ∃ s rest, omFind strLt key c.2.params.strs = some (s :: rest) ∧ getVal [] c.2.params.strs key = .ok s := by
  cases h : omFind strLt key c.2.params.strs with
  | none => left; exact ⟨by simp only [getVal, h], rfl⟩
  | some l =>
    cases l with
    | nil => exact absurd h (hp.strings c hc key)
    | cons s rest => right; exact ⟨s, rest, rfl, by simp only [getVal, h]⟩

theorem decoder_ok {cols : List (Str × Collection)} (hp : Printable cols) {c : Str × Collection} (hc : c ∈ cols) : works (decoderOfCollection (some c.2)) = .ok () := by
  obtain ⟨b0, hb0⟩ : ∃ b, BitField.make defaultEncoding = .ok b := by
    have : (BitField.make defaultEncoding).isOk = true := by decide +kernel
    cases h : BitField.make defaultEncoding with
    | ok b => exact ⟨b, rfl⟩
    | error e => rw [h] at this; cases this
  have key : ∀ s, getVal [] c.2.params.strs encodingKey = .ok s → (∃ b, BitField.make (if s.length = 0 then defaultEncoding else s) = .ok b) → ∃ d, decoderOfCollection (some c.2) = .ok d := by
    rintro s h ⟨b, hb⟩
    exact ⟨{ b := b }, by simp only [decoderOfCollection, h, bind, Except.bind, hb, pure, Except.pure]⟩
  rw [works_ok]
  rcases getVal_ok hp hc encodingKey with ⟨h, _⟩ | ⟨s, rest, hf, h⟩
  · exact key _ h ⟨b0, hb0⟩
  · refine key s h ?_
    by_cases hl : s.length = 0
    · rw [if_pos hl]; exact ⟨b0, hb0⟩
    · rw [if_neg hl]
      exact (hp.encodings c hc s rest hf).resolve_left fun h0 => hl (by rw [h0]; rfl)

theorem fields_ok {cols : List (Str × Collection)} (hp : Printable cols) {c : Str × Collection} (hc : c ∈ cols) : showFields c.2 = .ok () := by
  unfold showFields
  rcases getVal_ok hp hc encodingKey with ⟨h, _⟩ | ⟨s, rest, hf, h⟩ <;> rw [h]
  · rfl
  · show (if s = [] then _ else _) = _
    split
    · rfl
    · exact decoder_ok hp hc

theorem endpoint_ok {cols : List (Str × Collection)} (hs : Sound cols) : ∀ ds : List Nat, (∀ d ∈ ds, ∃ o, HasObject cols d o ∧ OfClass (str "MCParticle") o) → endpointLoop cols ds = .ok ()
  | [], _ => rfl
  | d :: ds, h => by
    obtain ⟨o, ho, hc⟩ := h d (List.mem_cons_self ..)
    have hcast := castsTo_of _ o hc
    cases o with
    | mcParticle q =>
      simp only [endpointLoop, eventObject_holds hs ho]
      split
      · exact endpoint_ok hs ds fun x hx => h x (List.mem_cons_of_mem _ hx)
      · rfl
    | _ => exact absurd hcast (by simp only [castsTo]; decide)

theorem vertex_ok {cols : List (Str × Collection)} (hs : Sound cols) (hp : Printable cols) (v : Nat) (h : v = 0 ∨ ∃ o, HasObject cols v o ∧ OfClass (str "Vertex") o) : showVertex cols v = .ok () := by
  rcases h with rfl | ⟨o, ho, hc⟩
  · rfl
  · unfold showVertex
    split
    · rfl
    · have hcast := castsTo_of _ o hc
      rw [eventObject_holds hs ho]
      cases o with
      | vertex q => exact useIf_of hs (hp.typed v _ ho (q.particle, _) (List.mem_singleton.2 rfl))
      | _ => exact absurd hcast (by simp only [castsTo]; decide)

theorem endVertex_ok {cols : List (Str × Collection)} (hs : Sound cols) (hp : Printable cols) (l : List Nat) (h : ∀ p ∈ l, ∃ o, HasObject cols p o ∧ OfClass (str "ReconstructedParticle") o) :
    showEndVertex cols l = .ok () := by
  cases l with
  | nil => rfl
  | cons p l =>
    obtain ⟨o, ho, hc⟩ := h p (List.mem_cons_self ..)
    have hcast := castsTo_of _ o hc
    simp only [showEndVertex, eventObject_holds hs ho]
    cases o with
    | recoParticle q => exact vertex_ok hs hp _ (hp.typed p _ ho (q.startVertex, _) (List.mem_cons_self ..))
    | _ => exact absurd hcast (by simp only [castsTo]; decide)

theorem object_ok {cols : List (Str × Collection)} (hs : Sound cols) (hp : Printable cols) {c : Str × Collection} (hc : c ∈ cols) {p : Nat} {o : Obj} (ho : HasObject cols p o) :
    showObject cols c.2 o = .ok () := by
  have hf := fields_ok hp hc
  have ht : ∀ q ∈ typedPointers o, useIf (usable cols q.2) q.1 = .ok () := fun q hq => useIf_of hs (hp.typed p o ho q hq)
  have hany : ∀ q ∈ pointersOf o, useIf (anyObject cols) q = .ok () := fun q hq => any_of hs (hs.pointers q (holds_pointers ho hq))
  cases o with
  | mcParticle o =>
    show (if _ then _ else _) = _
    split
    · rfl
    · refine endpoint_ok hs _ fun d hd => ?_
      rcases hp.typed p _ ho (d, _) (List.mem_map.2 ⟨d, hd, rfl⟩) with h0 | h
      · exact absurd (h0 ▸ hd) (hp.daughters p o ho)
      · exact h
  | simCalHit o => exact (andThen_ok _ _).2 ⟨hf, (forEach_ok _ _).2 fun x hx => ht _ (List.mem_map.2 ⟨x, hx, rfl⟩)⟩
  | rawCalHit o => exact hf
  | calHit o => exact hf
  | simTrackerHit o => exact (andThen_ok _ _).2 ⟨ht _ (List.mem_singleton.2 rfl), hf⟩
  | trackerRawData o => exact hf
  | trackerData o => exact hf
  | trackerPulse o => exact (andThen_ok _ _).2 ⟨ht _ (List.mem_singleton.2 rfl), hf⟩
  | trackerHit o => exact (andThen_ok _ _).2 ⟨(forEach_ok _ _).2 hany, hf⟩
  | trackerHitPlane o => exact (andThen_ok _ _).2 ⟨(forEach_ok _ _).2 hany, hf⟩
  | trackerHitZCylinder o => exact (andThen_ok _ _).2 ⟨(forEach_ok _ _).2 hany, hf⟩
  | track o =>
    refine (andThen_ok _ _).2 ⟨(forEach_ok _ _).2 fun x hx => ht (x, _) (List.mem_append_left _ (List.mem_map.2 ⟨x, hx, rfl⟩)), ?_⟩
    split
    · exact (forEach_ok _ _).2 fun x hx => ht (x, _) (List.mem_append_right _ (List.mem_map.2 ⟨x, hx, rfl⟩))
    · rfl
  | cluster o =>
    refine (andThen_ok _ _).2 ⟨(forEach_ok _ _).2 fun x hx => ht (x, _) (List.mem_append_left _ (List.mem_map.2 ⟨x, hx, rfl⟩)), ?_⟩
    split
    · refine (andThen_ok _ _).2 ⟨(forEach_ok _ _).2 fun x hx => ht (x, _) (List.mem_append_right _ (List.mem_map.2 ⟨x, hx, rfl⟩)), if_pos (hp.contributions p o ho)⟩
    · rfl
  | recoParticle o =>
    have hmem : ∀ x ∈ o.particles, ∃ o', HasObject cols x o' ∧ OfClass (str "ReconstructedParticle") o' := fun x hx => by
      rcases hp.typed p _ ho (x, _) (List.mem_cons_of_mem _ (List.mem_append_left _ (List.mem_append_left _ (List.mem_map.2 ⟨x, hx, rfl⟩)))) with h0 | h
      · exact absurd (h0 ▸ hx) (hp.particles p o ho)
      · exact h
    refine (andThen_ok _ _).2 ⟨?_, (andThen_ok _ _).2 ⟨(forEach_ok _ _).2 fun x hx => ?_, (andThen_ok _ _).2 ⟨(forEach_ok _ _).2 fun x hx => ?_,
      (andThen_ok _ _).2 ⟨(forEach_ok _ _).2 fun x hx => ?_, (andThen_ok _ _).2 ⟨?_, endVertex_ok hs hp _ hmem⟩⟩⟩⟩⟩
    · rcases hp.used p o ho with h | h
      · rw [useIf, if_pos h]
      · rw [useIf, use, pidAt_of h]
        split <;> rfl
    · rw [use, usable_of hs (hmem x hx)]
      rfl
    · exact ht (x, _) (List.mem_cons_of_mem _ (List.mem_append_left _ (List.mem_append_right _ (List.mem_map.2 ⟨x, hx, rfl⟩))))
    · exact ht (x, _) (List.mem_cons_of_mem _ (List.mem_append_right _ (List.mem_map.2 ⟨x, hx, rfl⟩)))
    · exact vertex_ok hs hp _ (hp.typed p _ ho (o.startVertex, _) (List.mem_cons_self ..))
  | relation o => exact (andThen_ok _ _).2 ⟨hany _ (List.mem_cons_self ..), hany _ (List.mem_cons_of_mem _ (List.mem_singleton.2 rfl))⟩
  | vertex o => exact ht _ (List.mem_singleton.2 rfl)
  | _ => rfl

/-- The object of an element. -/
theorem elementAs_ok {cols : List (Str × Collection)} (hs : Sound cols) (hp : Printable cols) {c : Str × Collection} (hc : c ∈ cols) {e : Elem} (he : e ∈ c.2.elems) :
    ∃ o, elementAs cols c.2.type e = some o ∧ HasObject cols e.addr o ∧ castsTo c.2.type o = true ∧ (e.obj = some o ∨ e.obj = none) := by
  cases ho : e.obj with
  | some o =>
    have hcast : castsTo c.2.type o = true := hs.classes c hc e he o ho ▸ Props.castsTo_class o
    exact ⟨o, by simp only [elementAs, ho, dynCast, hcast, if_true], ⟨c, hc, e, he, rfl, ho⟩, hcast, Or.inl rfl⟩
  | none =>
    obtain ⟨o, hh, hcl⟩ := hp.subsets c hc e he ho
    have hcast := castsTo_of _ o hcl
    exact ⟨o, by simp only [elementAs, ho, dynCast, eventObject_holds hs hh, hcast, if_true], hh, hcast, Or.inr rfl⟩

theorem printedElems_mem {k : Kind} {c : Collection} {e : Elem} (h : e ∈ printedElems k c) : e ∈ c.elems := by
  unfold printedElems at h
  split at h
  · exact h
  · exact List.mem_of_mem_take h

theorem pid_handlers : ∀ h ∈ handlers, h.2 = Kind.cluster ∨ h.2 = Kind.recoParticle → h.1 = str "Cluster" ∨ h.1 = str "ReconstructedParticle" := by decide

theorem tail_ok {cols : List (Str × Collection)} (hs : Sound cols) (hp : Printable cols) {c : Str × Collection} (hc : c ∈ cols) {k : Kind} (hk : kindOf c.2.type = some k) :
    printTail cols k c.2 = .ok () := by
  unfold printTail
  split
  · rename_i hkk
    have ht : c.2.type = str "Cluster" ∨ c.2.type = str "ReconstructedParticle" := by
      obtain ⟨h', hh', hk'⟩ := Option.map_eq_some_iff.1 hk
      have h1 := List.find?_some hh'
      have h2 := List.mem_of_find?_eq_some hh'
      rw [beq_iff_eq] at h1
      rw [← h1]
      exact pid_handlers h' h2 (hk' ▸ hkk)
    obtain ⟨h, hh, hpids⟩ := hp.algorithms c hc ht
    rw [hh]
    refine (forEach_ok _ _).2 fun e he => ?_
    have he' := printedElems_mem he
    obtain ⟨o, hel, hho, hcast, ho⟩ := elementAs_ok hs hp hc he'
    simp only [showPids, hel]
    cases o with
    | cluster q =>
      refine (forEach_ok _ _).2 fun i hi => ?_
      have := hpids e he' q (ho.imp id fun h => ⟨h, hho⟩) i hi
      unfold showClusterPid
      cases hn : h.getParameterNames i.algorithmType.toInt with
      | error _ => rfl
      | ok names => exact if_pos (this names hn)
    | recoParticle q => rfl
    | _ => exact absurd hcast (by rcases ht with ht | ht <;> (simp only [castsTo, ht]; decide))
  · rfl

theorem head_ok {cols : List (Str × Collection)} (hp : Printable cols) {c : Str × Collection} (hc : c ∈ cols) (k : Kind) : printHead k c.2 = .ok () := by
  have hg : ∀ key, works (getVal [] c.2.params.strs key) = .ok () := fun key => by
    rcases getVal_ok hp hc key with ⟨h, _⟩ | ⟨s, rest, _, h⟩ <;> rw [h] <;> rfl
  have hd := decoder_ok hp hc
  cases k <;> first
    | rfl
    | exact hd
    | exact hg _
    | exact (andThen_ok _ _).2 ⟨hg _, hg _⟩

theorem dumpEventDetailed_iff (cols : List (Str × Collection)) : dumpEventDetailed cols = .ok () ↔ ∀ c ∈ cols, ∀ k, kindOf c.2.type = some k →
    printHead k c.2 = .ok () ∧ (∀ e ∈ printedElems k c.2, showElement cols c.2 e = .ok ()) ∧ printTail cols k c.2 = .ok () := by
  rw [dumpEventDetailed, forEach_ok]
  refine forall_congr' fun c => forall_congr' fun _ => ?_
  unfold printCollection
  cases kindOf c.2.type with
  | none => exact ⟨fun _ _ h => (nomatch h), fun _ => rfl⟩
  | some k => simp only [andThen_ok, forEach_ok, Option.some.injEq, forall_eq']

end Util
