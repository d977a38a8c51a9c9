import Verif.Sio.TypedLemmas
import Verif.Spec.Calls
/-
Read programs and the pointer calls they make.
-/
namespace Sio
open Spec

theorem four_bytes (l : List Byte) (h : l.length = 4) : ∃ a b c d, l = [a, b, c, d] := by
  match l, h with
  | [a, b, c, d], _ => exact ⟨a, b, c, d, rfl⟩

theorem bigEndian_fold (l : List Byte) (h : l.length = 4) :
    bigEndian 4 (l.foldl (fun n b => n * 256 + b.toNat) 0) = l ∧ l.foldl (fun n b => n * 256 + b.toNat) 0 < 2 ^ 32 := by
  obtain ⟨a, b, c, d, rfl⟩ := four_bytes l h
  have ha := a.toNat_lt; have hb := b.toNat_lt; have hc := c.toNat_lt; have hd := d.toNat_lt
  simp only [bigEndian, List.range, List.range.loop, List.map_cons, List.map_nil, List.foldl_cons, List.foldl_nil]
  refine ⟨?_, by omega⟩
  congr 1
  · rw [show (((0 * 256 + a.toNat) * 256 + b.toNat) * 256 + c.toNat) * 256 + d.toNat = a.toNat * 256 ^ 3 + (b.toNat * 256 ^ 2 + c.toNat * 256 + d.toNat) by omega]
    rw [show (a.toNat * 256 ^ 3 + (b.toNat * 256 ^ 2 + c.toNat * 256 + d.toNat)) / 256 ^ (4 - 1 - 0) % 256 = a.toNat by omega]
    exact UInt8.ofNat_toNat
  congr 1
  · rw [show ((((0 * 256 + a.toNat) * 256 + b.toNat) * 256 + c.toNat) * 256 + d.toNat) / 256 ^ (4 - 1 - 1) % 256 = b.toNat by omega]
    exact UInt8.ofNat_toNat
  congr 1
  · rw [show ((((0 * 256 + a.toNat) * 256 + b.toNat) * 256 + c.toNat) * 256 + d.toNat) / 256 ^ (4 - 1 - 2) % 256 = c.toNat by omega]
    exact UInt8.ofNat_toNat
  congr 1
  · rw [show ((((0 * 256 + a.toNat) * 256 + b.toNat) * 256 + c.toNat) * 256 + d.toNat) / 256 ^ (4 - 1 - 3) % 256 = d.toNat by omega]
    exact UInt8.ofNat_toNat

/-- Reading one word, on any buffer. -/
theorem RDev.data_word_iff (d : RDev) :
    (d.cur + 4 ≤ d.buf.length ∧ d.data 4 1 = .ok ([wordAt d.buf d.cur], { d with cur := d.cur + 4 })) ∨
    (d.buf.length < d.cur + 4 ∧ d.data 4 1 = .error .invalidArgument) := by
  by_cases h : d.cur + 4 ≤ d.buf.length
  · left
    refine ⟨h, ?_⟩
    have hl : ((d.buf.drop d.cur).take 4).length = 4 := by simp; omega
    obtain ⟨h1, h2⟩ := bigEndian_fold _ hl
    have := RDev.data_word d (d.buf.take d.cur) (d.buf.drop (d.cur + 4)) (wordAt d.buf d.cur)
      (by
        unfold wordAt
        rw [h1, List.append_assoc, ← List.drop_drop, List.take_append_drop, List.take_append_drop]) (by simp; omega)
    rw [this, Nat.mod_eq_of_lt (show wordAt d.buf d.cur < 2 ^ 32 from h2), List.length_take, Nat.min_eq_left (by omega)]
  · right
    refine ⟨by omega, ?_⟩
    unfold RDev.data apiRead
    have : padLen (4 * 1) = 4 := by decide
    simp only [this]
    rw [if_pos (by omega)]

/-- Object events as (word, object). -/
def objWords (es : List RefEvent) : List (Nat × Nat) := es.filterMap fun | .obj w o => some (w, o) | _ => none

theorem refEvents_congr {α : Type} (p : RProg α) (d1 d2 : RDev) (hb : d1.buf = d2.buf) (hc : d1.cur = d2.cur) (hn : d1.next = d2.next) :
    refEvents p d1 = refEvents p d2 := by
  induction p generalizing d1 d2 with
  | ret _ => rfl
  | throw _ => rfl
  | arr s c k ih =>
    simp only [refEvents, RDev.data, hb, hc]
    cases apiRead d2.buf s d2.cur c with
    | error e => rfl
    | ok x => exact ih _ _ _ (by simp) rfl (by simp [hn])
  | ptr k ih =>
    simp only [refEvents, hb, hc]
    exact congrArg (List.cons _) (ih _ _ _ rfl rfl hn)
  | tag o k ih =>
    simp only [refEvents, hb, hc]
    exact congrArg (List.cons _) (ih _ _ rfl rfl hn)
  | new k ih =>
    simp only [refEvents, hn]
    exact ih _ _ _ hb hc rfl

theorem run_refEvents {α : Type} (p : RProg α) (d d' : RDev) (a : α) (h : p.run d = .ok (a, d')) :
    d'.mem = d.mem ++ slotWords (refEvents p d) ∧ d'.pointedAt = regTags d.pointedAt (objWords (refEvents p d)) ∧
      d'.buf = d.buf := by
  induction p generalizing d with
  | ret _ => simp only [RProg.run, Except.ok.injEq, Prod.mk.injEq] at h; obtain ⟨_, rfl⟩ := h; simp [refEvents, slotWords, objWords, regTags]
  | throw _ => simp [RProg.run] at h
  | arr s c k ih =>
    simp only [RProg.run] at h
    simp only [refEvents]
    split at h
    · cases h
    · rename_i vs d1 hd
      rw [hd]
      have := ih _ _ h
      have e : d1.mem = d.mem ∧ d1.pointedAt = d.pointedAt ∧ d1.buf = d.buf := by
        unfold RDev.data at hd
        split at hd
        · cases hd
        · cases hd; exact ⟨rfl, rfl, rfl⟩
      rw [e.1, e.2.1, e.2.2] at this
      exact this
  | ptr k ih =>
    simp only [RProg.run] at h
    rcases RDev.data_word_iff d with ⟨_, hd⟩ | ⟨_, hd⟩
    · rw [hd] at h
      have hcongr : ∀ X : RDev, X.buf = d.buf → X.cur = d.cur + 4 → X.next = d.next →
          refEvents (k (wordAt d.buf d.cur)) X = refEvents (k (wordAt d.buf d.cur)) { d with cur := d.cur + 4 } :=
        fun X h1 h2 h3 => refEvents_congr _ X _ h1 h2 h3
      have e1 : slotWords (refEvents (.ptr k) d) = wordAt d.buf d.cur :: slotWords (refEvents (k (wordAt d.buf d.cur)) { d with cur := d.cur + 4 }) := rfl
      have e2 : objWords (refEvents (.ptr k) d) = objWords (refEvents (k (wordAt d.buf d.cur)) { d with cur := d.cur + 4 }) := rfl
      rw [e1, e2]
      by_cases hw : wordAt d.buf d.cur = 0
      · simp only [if_pos (show [wordAt d.buf d.cur].headD 0 = 0 from hw)] at h
        obtain ⟨h1, h2, h3⟩ := ih _ _ h
        rw [show ∀ m pt, refEvents (k ([wordAt d.buf d.cur].headD 0)) ({ d with cur := d.cur + 4, mem := m, pointerTo := pt }) = refEvents (k (wordAt d.buf d.cur)) { d with cur := d.cur + 4 } from fun m pt => hcongr _ rfl rfl rfl] at h1 h2
        exact ⟨by rw [h1]; simp, h2, h3⟩
      · simp only [if_neg (show ¬ [wordAt d.buf d.cur].headD 0 = 0 from hw)] at h
        obtain ⟨h1, h2, h3⟩ := ih _ _ h
        rw [show ∀ m pt, refEvents (k ([wordAt d.buf d.cur].headD 0)) ({ d with cur := d.cur + 4, mem := m, pointerTo := pt }) = refEvents (k (wordAt d.buf d.cur)) { d with cur := d.cur + 4 } from fun m pt => hcongr _ rfl rfl rfl] at h1 h2
        exact ⟨by rw [h1]; simp, h2, h3⟩
    · rw [hd] at h; cases h
  | tag o k ih =>
    simp only [RProg.run] at h
    rcases RDev.data_word_iff d with ⟨_, hd⟩ | ⟨_, hd⟩
    · rw [hd] at h
      have hcongr : ∀ X : RDev, X.buf = d.buf → X.cur = d.cur + 4 → X.next = d.next →
          refEvents k X = refEvents k { d with cur := d.cur + 4 } :=
        fun X h1 h2 h3 => refEvents_congr _ X _ h1 h2 h3
      have e1 : slotWords (refEvents (.tag o k) d) = slotWords (refEvents k { d with cur := d.cur + 4 }) := rfl
      have e2 : objWords (refEvents (.tag o k) d) = (wordAt d.buf d.cur, o) :: objWords (refEvents k { d with cur := d.cur + 4 }) := rfl
      rw [e1, e2, regTags]
      by_cases hw : wordAt d.buf d.cur = 0xffffffff
      · simp only [if_pos (show [wordAt d.buf d.cur].headD 0 = 0xffffffff from hw)] at h
        obtain ⟨h1, h2, h3⟩ := ih _ h
        rw [show ∀ pa, refEvents k ({ d with cur := d.cur + 4, pointedAt := pa }) = refEvents k { d with cur := d.cur + 4 } from fun pa => hcongr _ rfl rfl rfl] at h1 h2
        rw [if_pos hw]
        exact ⟨h1, h2, h3⟩
      · simp only [if_neg (show ¬ [wordAt d.buf d.cur].headD 0 = 0xffffffff from hw)] at h
        obtain ⟨h1, h2, h3⟩ := ih _ h
        rw [show ∀ pa, refEvents k ({ d with cur := d.cur + 4, pointedAt := pa }) = refEvents k { d with cur := d.cur + 4 } from fun pa => hcongr _ rfl rfl rfl] at h1 h2
        rw [if_neg hw]
        exact ⟨h1, h2, h3⟩
    · rw [hd] at h; cases h
  | new k ih =>
    simp only [RProg.run] at h
    exact ih _ _ h

theorem mapFind_objWords (es : List RefEvent) (w : Nat) :
    mapFind w (objWords es) = es.findSome? fun | .obj w' o => if w' = w then some o else none | _ => none := by
  induction es with
  | nil => rfl
  | cons e es ih =>
    cases e with
    | slot x => exact ih
    | obj x o =>
      have : objWords (.obj x o :: es) = (x, o) :: objWords es := rfl
      rw [this, mapFind_cons, ih]
      simp only [List.findSome?_cons]
      split <;> rfl

theorem mapFind_regTags_none (m l : List (Nat × Nat)) (hm : ∀ e ∈ m, e.1 ≠ 0xffffffff) :
    ∀ e ∈ regTags m l, e.1 ≠ 0xffffffff := by
  induction l generalizing m with
  | nil => exact hm
  | cons x l ih =>
    obtain ⟨w, o⟩ := x
    simp only [regTags]
    apply ih
    split
    · exact hm
    · intro e he
      rcases mapInsert_mem _ _ _ _ he with rfl | h
      · assumption
      · exact hm e h

theorem relocWord_resolve (es : List RefEvent) (w : Nat) : relocWord (regTags [] (objWords es)) w = resolve es w := by
  unfold relocWord resolve
  by_cases h0 : w = 0
  · simp [h0]
  · by_cases hf : w = 0xffffffff
    · subst hf
      simp only [if_neg h0]
      have : mapFind 0xffffffff (regTags [] (objWords es)) = none := by
        have := mapFind_regTags_none [] (objWords es) (by simp)
        generalize regTags [] (objWords es) = m at this
        unfold mapFind
        rw [Option.map_eq_none_iff, List.find?_eq_none]
        intro x hx
        simpa using this x hx
      rw [this]; rfl
    · rw [if_neg h0, if_neg (by omega), mapFind_regTags _ _ _ List.Pairwise.nil hf, mapFind_objWords]
      rfl

end Sio
