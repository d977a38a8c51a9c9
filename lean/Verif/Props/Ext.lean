import Verif.Lcio.ExtLemmas
/-
Extensions of objects: C120.
-/
namespace Props
open Sio Spec Lcio

/-- **C120**, ownership. A program makes objects, attaches things to them, copies, assigns and deletes objects, in any order, using only objects that exist. What it gives to extensions that take ownership it gives once. Then
nothing is undefined; nothing is deleted twice or without having been given; and what an object that exists has as such an extension was not deleted, also if the object is a copy of one that does not exist any more. -/
theorem C120_deleted_once (K : Nat → ExtKind) (cs : List ExtCall) (hu : wellUsed [] cs) (hg : (givenAway K cs).Nodup) :
    ∃ r w, ExtWorld.run K {} cs = .ok (r, w) ∧ w.dead.Nodup ∧ (∀ x ∈ w.dead, x ∈ givenAway K cs) ∧
      ∀ a tag, wellUsed [] (cs ++ [.get a tag]) → ∃ l w', ExtWorld.run K {} (cs ++ [.get a tag]) = .ok (r ++ [l], w') ∧ w'.dead = w.dead ∧ ((K tag).owned = true → ∀ x ∈ l, x ∉ w.dead) := by
  obtain ⟨r, w, h1, h2, h3⟩ := ExtInv.run cs (ext_start (K := K)) hu (by simpa using hg)
  rw [List.nil_append] at h2
  refine ⟨r, w, h1, h2.dead, ?_, ?_⟩
  · intro x hx
    obtain ⟨h, p, p1, p2, p3, -⟩ := h2.gone x hx
    exact h2.given h p p1 p2 x p3 (h2.nonzero x hx)
  · intro a tag hu'
    have hu2 := ((wellUsed_append cs [.get a tag] []).1 hu').2
    rw [show ([] : List Bool) = ({} : ExtWorld).objs.map Option.isSome from rfl, ← h3] at hu2
    obtain ⟨o, ho⟩ := flags_obj rfl hu2.1
    obtain ⟨h, v, o', e, iv, hd, hp, hv, hm, -, -⟩ := h2.ptr ho tag
    refine ⟨extOf K w o tag, v, ?_, hd, ?_⟩
    · rw [run_append, h1]
      simp only [ExtWorld.run, ExtWorld.call, ho, e, hp, Option.map_some, Option.getD_some]
    · intro hk x hx
      rw [← hd]
      exact iv.alive hp hk (used_iff.2 ⟨a, o', hv, List.mem_map.2 ⟨_, hm, rfl⟩⟩) x hx

/-- **C120**, values, as far as it holds. If no objects are copied, `ext<V>()` shows for every object and every class `V` what this program has attached to this object under this name, and zero, a null pointer or an empty
container if nothing: other objects and other classes have no influence. When an object is deleted, what it owns then is deleted, and nothing else. -/
theorem C120_values_partial (K : Nat → ExtKind) (cs : List ExtCall) (hu : wellUsed [] cs) (hg : (givenAway K cs).Nodup) (hc : noCopies cs) :
    ∃ r w, ExtWorld.run K {} cs = .ok (r, w) ∧
      (∀ a tag, wellUsed [] (cs ++ [.get a tag]) → ∃ w', ExtWorld.run K {} (cs ++ [.get a tag]) = .ok (r ++ [attached K a tag (unattached K tag) cs], w')) ∧
      (∀ a, wellUsed [] (cs ++ [.delete a]) → ∃ w', ExtWorld.run K {} (cs ++ [.delete a]) = .ok (r ++ [[]], w') ∧
        ∀ x, x ∈ w'.dead ↔ x ∈ w.dead ∨ (x ≠ 0 ∧ ∃ tag, (K tag).owned = true ∧ x ∈ attached K a tag (unattached K tag) cs)) := by
  obtain ⟨r, w, h1, h2, h3⟩ := ExtInv.run cs (ext_start (K := K)) hu (by simpa using hg)
  have hn : OwnInv K w (fun a tag => attached K a tag (unattached K tag) cs) := OwnInv.run cs (own_start (K := K)) ext_start hu (by simpa using hg) hc h1
  rw [List.nil_append] at h2
  refine ⟨r, w, h1, ?_, ?_⟩
  · intro a tag hu'
    have hu2 := ((wellUsed_append cs [.get a tag] []).1 hu').2
    rw [show ([] : List Bool) = ({} : ExtWorld).objs.map Option.isSome from rfl, ← h3] at hu2
    obtain ⟨l, v, k1, -, -⟩ := h2.call (.get a tag) hu2 (by simpa [givenAway] using hg)
    have := (hn.call h2 (.get a tag) hu2 (by simpa [givenAway] using hg) ⟨by simp, by simp⟩ k1).2 a tag rfl
    refine ⟨v, ?_⟩
    rw [run_append, h1]
    simp only [ExtWorld.run, k1, this]
  · intro a hu'
    have hu2 := ((wellUsed_append cs [.delete a] []).1 hu').2
    rw [show ([] : List Bool) = ({} : ExtWorld).objs.map Option.isSome from rfl, ← h3] at hu2
    obtain ⟨o, ho⟩ := flags_obj rfl hu2.1
    obtain ⟨v, e, -, v1, v2, v3⟩ := h2.drop ho none (by intro q hq; cases hq)
    refine ⟨v, ?_, ?_⟩
    · rw [run_append, h1]
      simp only [ExtWorld.run, ExtWorld.call, ho, e, Except.map]
    · intro x
      rw [v3, List.mem_append, List.mem_filter, List.mem_flatMap]
      have hfree : ∀ h ∈ o.ext.map (·.2), ({ w with objs := w.objs.set a none } : ExtWorld).used h = false := by
        intro h hh
        rw [Bool.eq_false_iff]
        intro hx
        obtain ⟨b, q, hb, hm⟩ := used_iff.1 hx
        rw [obj_set (obj_lt ho)] at hb
        by_cases hba : b = a
        · rw [if_pos hba] at hb; cases hb
        · rw [if_neg hba] at hb
          exact hn.apart a b o q ho hb (Ne.symm hba) h hh hm
      apply or_congr Iff.rfl
      constructor
      · rintro ⟨⟨h, hh, hx⟩, h0⟩
        refine ⟨by simpa using h0, ?_⟩
        obtain ⟨e', he, rfl⟩ := List.mem_map.1 hh
        obtain ⟨-, p, p1, p2, p3⟩ := owns_mem hx
        obtain ⟨l, hl⟩ := h2.place a o ho e' he
        have hp : p = (e'.1, l) := by
          have : some p = some (e'.1, l) := p1.symm.trans hl
          exact Option.some.inj this
        subst hp
        refine ⟨e'.1, p2, ?_⟩
        rw [← hn.val a o ho e'.1]
        unfold extOf
        rw [find_of_mem (h2.distinct a o ho).1 he]
        simp [hl]
        exact p3
      · rintro ⟨h0, tag, hk, hx⟩
        refine ⟨?_, by simpa using h0⟩
        rw [← hn.val a o ho tag] at hx
        unfold extOf at hx
        cases hf : o.ext.find? (·.1 == tag) with
        | none => rw [hf] at hx; exact absurd (init_zero _ x hx) h0
        | some e' =>
          rw [hf] at hx
          obtain ⟨f1, f2⟩ := find_tag hf
          have hm : e'.2 ∈ o.ext.map (·.2) := List.mem_map.2 ⟨e', f1, rfl⟩
          refine ⟨e'.2, hm, ?_⟩
          obtain ⟨l, hl⟩ := h2.place a o ho e' f1
          simp only [hl, Option.map_some, Option.getD_some] at hx
          unfold ExtWorld.owns
          rw [hfree _ hm]
          simp [hl, f2, hk, hx]

/-- **C120**, nothing is lost: if what is given away is only given to containers, and all objects have been deleted in the end, then just what was given away has been deleted, also if objects were copied and assigned. -/
theorem C120_nothing_lost (K : Nat → ExtKind) (cs : List ExtCall) (hu : wellUsed [] cs) (hg : (givenAway K cs).Nodup) (hm : ∀ a tag x, .put a tag x ∈ cs → (K tag).owned = true → (K tag).many = true)
    (hall : true ∉ cs.foldl flagsAfter []) : ∃ r w, ExtWorld.run K {} cs = .ok (r, w) ∧ w.dead.Nodup ∧ ∀ x, x ∈ w.dead ↔ x ∈ givenAway K cs := by
  obtain ⟨r, w, h1, h2, h3⟩ := ExtInv.run cs (ext_start (K := K)) hu (by simpa using hg)
  have hn := LostInv.run cs hm (lost_start (K := K)) ext_start hu (by simpa using hg) h1
  rw [List.nil_append] at h2 hn
  refine ⟨r, w, h1, h2.dead, ?_⟩
  intro x
  constructor
  · intro hx
    obtain ⟨h, p, p1, p2, p3, -⟩ := h2.gone x hx
    exact h2.given h p p1 p2 x p3 (h2.nonzero x hx)
  · intro hx
    obtain ⟨h, p, p1, p2, p3⟩ := hn.kept x hx
    refine hn.lost h p p1 p2 ?_ x p3 (given_nonzero _ x hx)
    rw [Bool.eq_false_iff]
    intro hx
    obtain ⟨a, o, ha, -⟩ := used_iff.1 hx
    apply hall
    have : w.objs.map Option.isSome = cs.foldl flagsAfter [] := h3
    rw [← this]
    exact List.mem_map.2 ⟨some o, List.mem_iff_getElem?.2 ⟨a, obj_some.1 ha⟩, rfl⟩

/-- **C120**, tracks: whatever the program has done, a copy of a track has nothing attached, and what is attached to the copy does not appear at the track. -/
theorem C120_copied_tracks (K : Nat → ExtKind) (cs : List ExtCall) (hu : wellUsed [] cs) (hg : (givenAway K cs).Nodup) (r : List (List Nat)) (w : ExtWorld) (hr : ExtWorld.run K {} cs = .ok (r, w)) (a : Nat) (o : ExtObj)
    (ho : w.obj a = some o) (ht : o.track = true) (tag x : Nat) :
    (∃ w', ExtWorld.run K {} (cs ++ [.copy a, .get w.objs.length tag]) = .ok (r ++ [[], unattached K tag], w')) ∧
    ∃ l w₁ w₂, ExtWorld.run K {} (cs ++ [.get a tag]) = .ok (r ++ [l], w₁) ∧ ExtWorld.run K {} (cs ++ [.copy a, .put w.objs.length tag x, .get a tag]) = .ok (r ++ [[], [], l], w₂) := by
  obtain ⟨r', w', h1, h2, -⟩ := ExtInv.run cs (ext_start (K := K)) hu (by simpa using hg)
  rw [hr] at h1
  cases h1
  have hlt := obj_lt ho
  have hc : w.call K (.copy a) = .ok ([], ⟨w.objs ++ [some { track := true }], w.places, w.dead⟩) := by
    simp [ExtWorld.call, ho, ht]
  have ho1 : (⟨w.objs ++ [some { track := true }], w.places, w.dead⟩ : ExtWorld).obj w.objs.length = some { track := true } := by
    rw [obj_add, if_pos rfl]
  constructor
  · have hg1 : ∃ w', (⟨w.objs ++ [some { track := true }], w.places, w.dead⟩ : ExtWorld).call K (.get w.objs.length tag) = .ok (unattached K tag, w') := by
      simp [ExtWorld.call, ho1, ExtWorld.ptr, ExtKind.init, unattached]
    obtain ⟨w', hg1⟩ := hg1
    refine ⟨w', ?_⟩
    rw [run_append, hr]
    simp only [ExtWorld.run, hc, hg1]
  · refine ⟨extOf K w o tag, ?_⟩
    obtain ⟨h, v, o', e, -, -, hp, -, -, -, -⟩ := h2.ptr ho tag
    refine ⟨v, ?_⟩
    have hput : (⟨w.objs ++ [some { track := true }], w.places, w.dead⟩ : ExtWorld).call K (.put w.objs.length tag x) =
        .ok ([], ⟨w.objs ++ [some { track := true, ext := [(tag, w.places.length)] }], w.places ++ [(tag, if (K tag).many then (K tag).init ++ [x] else [x])], w.dead⟩) := by
      simp [ExtWorld.call, ho1, ExtWorld.ptr]
      exact modify_last _ _ _
    have ho2 : (⟨w.objs ++ [some { track := true, ext := [(tag, w.places.length)] }], w.places ++ [(tag, if (K tag).many then (K tag).init ++ [x] else [x])], w.dead⟩ : ExtWorld).obj a = some o := by
      rw [obj_add, if_neg (by omega), ho]
    have hget : ∃ w₂, (⟨w.objs ++ [some { track := true, ext := [(tag, w.places.length)] }], w.places ++ [(tag, if (K tag).many then (K tag).init ++ [x] else [x])], w.dead⟩ : ExtWorld).call K (.get a tag) =
        .ok (extOf K w o tag, w₂) := by
      simp only [ExtWorld.call, ho2, ExtWorld.ptr, extOf]
      cases hf : o.ext.find? (·.1 == tag) with
      | none => exact ⟨_, by simp; rfl⟩
      | some e' =>
        obtain ⟨l, hl⟩ := h2.place a o ho e' (find_tag hf).1
        simp only
        rw [List.getElem?_append_left (List.getElem?_eq_some_iff.1 hl).1]
        exact ⟨_, rfl⟩
    obtain ⟨w₂, hget⟩ := hget
    refine ⟨w₂, ?_, ?_⟩
    · rw [run_append, hr]
      simp only [ExtWorld.run, ExtWorld.call, ho, e, hp, Option.map_some, Option.getD_some]
    · rw [run_append, hr]
      simp only [ExtWorld.run, hc, hput, hget]

/-- **C120** fails for copies of objects other than tracks: the copy and the original share what was attached before, and what is attached to the copy is then seen at the original. (An extension that is first used after that
is not shared.) -/
theorem C120_fails_copies (K : Nat → ExtKind) (tag x y : Nat) :
    (∃ w, ExtWorld.run K {} [.make false, .put 0 tag x, .copy 0, .put 1 tag y, .get 0 tag] = .ok ([[], [], [], [], if (K tag).many then [x, y] else [y]], w)) ∧
    ∃ w, ExtWorld.run K {} [.make false, .copy 0, .put 1 tag y, .get 0 tag] = .ok ([[], [], [], unattached K tag], w) := by
  constructor
  · cases hm : (K tag).many <;> simp [ExtWorld.run, ExtWorld.call, ExtWorld.obj, ExtWorld.ptr, ExtKind.init, hm]
  · simp [ExtWorld.run, ExtWorld.call, ExtWorld.obj, ExtWorld.ptr, ExtKind.init, unattached]

/-- **C120** fails for what is replaced: if a pointer is assigned to an extension that owns one already, what was owned before is not deleted, not even together with the object. -/
theorem C120_fails_replaced (K : Nat → ExtKind) (tag x y : Nat) (hk : K tag = ⟨false, true⟩) (hy : y ≠ 0) (track : Bool) :
    ∃ w, ExtWorld.run K {} [.make track, .put 0 tag x, .put 0 tag y, .delete 0] = .ok ([[], [], [], []], w) ∧ w.dead = [y] := by
  simp [ExtWorld.run, ExtWorld.call, ExtWorld.obj, ExtWorld.ptr, ExtKind.init, hk, ExtWorld.release, ExtWorld.owns, ExtWorld.used, deleteObjects, hy, Except.map]

/-- **C120** fails for what is given to two objects: both delete it. -/
theorem C120_fails_two_owners (K : Nat → ExtKind) (tag x : Nat) (hk : (K tag).owned = true) (hx : x ≠ 0) (s t : Bool) :
    ExtWorld.run K {} [.make s, .make t, .put 0 tag x, .put 1 tag x, .delete 0, .delete 1] = .error .ub := by
  cases hm : (K tag).many <;>
  simp [ExtWorld.run, ExtWorld.call, ExtWorld.obj, ExtWorld.ptr, ExtKind.init, hk, hm, ExtWorld.release, ExtWorld.owns, ExtWorld.used, deleteObjects, hx, Except.map]

/-! ## Cases -/

/-- Numbers, pointers that are owned, and containers of pointers that are owned. -/
def sampleKinds (tag : Nat) : ExtKind := if tag = 0 then ⟨false, false⟩ else if tag = 1 then ⟨false, true⟩ else ⟨true, true⟩

/-- A program that attaches things to a particle and a track, and deletes the particle. -/
def sampleExts : List ExtCall := [.make false, .make true, .put 0 0 42, .put 1 0 7, .put 0 1 100, .put 0 2 101, .get 1 2, .put 0 2 102, .put 0 0 43, .get 0 0, .delete 0, .put 1 2 103]

example : wellUsed [] sampleExts ∧ (givenAway sampleKinds sampleExts).Nodup ∧ noCopies sampleExts ∧ wellUsed [] (sampleExts ++ [.get 1 2]) ∧ wellUsed [] (sampleExts ++ [.delete 1]) := by
  refine ⟨by simp [sampleExts, wellUsed], by decide, ?_, by simp [sampleExts, wellUsed], by simp [sampleExts, wellUsed]⟩
  intro c hc
  simp only [sampleExts, List.mem_cons, List.not_mem_nil, or_false] at hc
  rcases hc with rfl | rfl | rfl | rfl | rfl | rfl | rfl | rfl | rfl | rfl | rfl | rfl <;> simp

example : (ExtWorld.run sampleKinds {} sampleExts).map (fun x => (x.1, x.2.dead)) = .ok ([[], [], [], [], [], [], [], [], [], [43], [], []], [100, 101, 102]) := by decide

/-- A copy outlives the original: what both own is deleted with the copy. -/
example : wellUsed [] [.make false, .put 0 1 100, .copy 0, .delete 0, .get 1 1, .delete 1] ∧
    (ExtWorld.run sampleKinds {} [.make false, .put 0 1 100, .copy 0, .delete 0, .get 1 1]).map (fun x => (x.1, x.2.dead)) = .ok ([[], [], [], [], [100]], []) ∧
    (ExtWorld.run sampleKinds {} [.make false, .put 0 1 100, .copy 0, .delete 0, .get 1 1, .delete 1]).map (fun x => x.2.dead) = .ok [100] := by
  exact ⟨by simp [wellUsed], by decide, by decide⟩

/-- The hypotheses of `C120_nothing_lost` are met. -/
example : wellUsed [] [.make false, .put 0 2 100, .copy 0, .put 1 2 101, .delete 0, .delete 1] ∧ true ∉ [ExtCall.make false, .put 0 2 100, .copy 0, .put 1 2 101, .delete 0, .delete 1].foldl flagsAfter [] ∧
    (ExtWorld.run sampleKinds {} [.make false, .put 0 2 100, .copy 0, .put 1 2 101, .delete 0, .delete 1]).map (fun x => x.2.dead) = .ok [100, 101] := by
  exact ⟨by simp [wellUsed], by decide, by decide⟩

/-- The hypotheses of `C120_copied_tracks` are met. -/
example : ∃ r w o, ExtWorld.run sampleKinds {} sampleExts = .ok (r, w) ∧ w.obj 1 = some o ∧ o.track = true := ⟨_, _, _, rfl, rfl, rfl⟩

end Props
