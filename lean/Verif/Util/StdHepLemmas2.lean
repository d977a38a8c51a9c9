import Verif.Util.StdHepLemmas
/-
Lemmas about the loop that looks for the next event in a StdHep file.
-/
namespace Util
open Sio Spec

/-- The file is open for reading. -/
structure Opened (x : LXdr) (file : List Byte) : Prop where
  reads : x.forWrite = false
  opened : x.isOpen = true
  file : x.file = file

theorem Ahead.opened {x : LXdr} {file : List Byte} {items : List XdrItem} (h : Ahead x file items) : Opened x file := by
  obtain ⟨pre, rest, h'⟩ := h.at_
  exact ⟨h'.reads, h'.opened, h.file⟩

theorem ahead_stored {x : LXdr} {file : List Byte} (h : Opened x file) (he : x.err = 0) (pos : Nat) (items : List XdrItem) (hs : StoredAt file pos items) :
    Ahead { x with pos } file items := by
  obtain ⟨hok, pre, rest, h1, h2⟩ := hs
  exact ⟨h.file, he, hok, pre, rest, h.reads, h.opened, by rw [← h1]; exact h.file, h2.symm⟩

/-- Reading what is stored at a position. -/
theorem Reads.there {α : Type} {m : Rd α} {items : List XdrItem} {a : α} (hr : Reads m items a) {x : LXdr} {file : List Byte} (h : Opened x file) (he : x.err = 0)
    (pos : Nat) (hs : StoredAt file pos items) : ∃ x', m { x with pos } = .ok (a, x') ∧ Opened x' file ∧ x'.err = 0 := by
  obtain ⟨x', e, h'⟩ := hr _ file [] (by rw [List.append_nil]; exact ahead_stored h he pos items hs)
  exact ⟨x', e, h'.opened, h'.err⟩

theorem filePosition_nat (x : LXdr) (h : x.isOpen = true) (pos : Nat) : x.filePosition pos = ((pos : Int), { x with pos }) := by
  unfold LXdr.filePosition
  rw [h]
  simp only [Bool.not_true, Bool.false_eq_true, if_false, Int.toNat_natCast]
  rw [if_neg (by omega), if_neg (by omega)]

/-- The reader is at entry `i` of the table `t`; the tables `ts` follow. -/
structure Ready (s : LStdHep) (file : List Byte) (t : HepTable) (i : Nat) (ts : List HepTable) (w a c : W64) (p : Int) : Prop where
  x : Opened s.x file
  err : s.x.err = 0
  table : TableIs s.table t i
  le : i ≤ t.entries.length
  points : t.Points file
  tables : HepTables file t.next ts
  kept : Kept s.event w a c p

/-- There is nothing left to read. -/
structure Done (s : LStdHep) : Prop where
  last : ¬ (s.table.ievt : Int) < s.table.numEvts
  next : s.table.nextlocator = -2

theorem Done.again {s : LStdHep} (h : Done s) (n : Nat) : s.readLoop (n + 1) = .ok { s with x.err := lshEndOfFile } := by
  rw [LStdHep.readLoop, if_neg h.last, if_pos h.next]

/-- What is left. -/
def remaining (t : HepTable) (i : Nat) (ts : List HepTable) : List HepRecord :=
  (t.entries.drop i).map (·.2) ++ ts.flatMap fun t => t.entries.map (·.2)

/-- What the weights become after an event. -/
def nextKept (e : HepEvent) (k : W64 × W64 × W64 × Int) : W64 × W64 × W64 × Int :=
  match e.ev4 with
  | none => k
  | some v => (v.weight, v.alphaQed, v.alphaQcd, v.process)

theorem keptAfter_next {e : HepEvent} {ev : LEvent} {k : W64 × W64 × W64 × Int} (h : KeptAfter e ev k.1 k.2.1 k.2.2.1 k.2.2.2) :
    Kept ev (nextKept e k).1 (nextKept e k).2.1 (nextKept e k).2.2.1 (nextKept e k).2.2.2 := by
  unfold KeptAfter at h
  unfold nextKept
  cases he : e.ev4 with
  | none => rw [he] at h; exact h
  | some v => rw [he] at h; exact h

theorem _root_.Spec.HepTables.of_nil {file : List Byte} {n : Int} (h : HepTables file n []) : n = -2 := by cases h; rfl

theorem _root_.Spec.HepTables.of_cons {file : List Byte} {n : Int} {t : HepTable} {ts : List HepTable} (h : HepTables file n (t :: ts)) :
    ∃ pos : Nat, n = pos ∧ StoredAt file pos t.items ∧ t.Points file ∧ HepTables file t.next ts := by
  cases h with
  | cons pos t ts h1 h2 h3 => exact ⟨pos, rfl, h1, h2, h3⟩

theorem readLoop_spec (file : List Byte) (k : W64 × W64 × W64 × Int) : ∀ (fuel : Nat) (s : LStdHep) (t : HepTable) (i : Nat) (ts : List HepTable),
    Ready s file t i ts k.1 k.2.1 k.2.2.1 k.2.2.2 → (remaining t i ts).length + ts.length < fuel →
    (eventsOf (remaining t i ts) = [] → ∃ s', s.readLoop fuel = .ok s' ∧ s'.x.err = lshEndOfFile ∧ Done s') ∧
    ∀ r e es, eventsOf (remaining t i ts) = (r, e) :: es → ∃ s' t' i' ts', s.readLoop fuel = .ok s' ∧
      Ready s' file t' i' ts' (nextKept e k).1 (nextKept e k).2.1 (nextKept e k).2.2.1 (nextKept e k).2.2.2 ∧
      eventsOf (remaining t' i' ts') = es ∧ (remaining t' i' ts').length + ts'.length ≤ (remaining t i ts).length + ts.length ∧
      EventIs s'.event e ∧ s'.event.runnum = r := by
  intro fuel
  induction fuel with
  | zero => intro s t i ts _ hf; omega
  | succ fuel ih =>
    intro s t i ts h hf
    rw [LStdHep.readLoop, h.table.ievt, h.table.num]
    by_cases hi : i < t.entries.length
    · rw [if_pos (by omega)]
      have hptr : s.table.ptrEvents.bind (·[i]?) = some ((t.entries[i].1 : Nat) : Int) := by
        rw [h.table.ptrs]
        show (_ ++ _)[i]? = _
        rw [List.getElem?_append_left (by rw [List.length_map]; exact hi), List.getElem?_map, List.getElem?_eq_getElem hi]
        rfl
      have hrem : remaining t i ts = t.entries[i].2 :: remaining t (i + 1) ts := by
        unfold remaining
        rw [List.drop_eq_getElem_cons hi]; rfl
      rw [hptr]
      simp only [filePosition_nat s.x h.x.opened, ne_eq, not_true, if_false]
      obtain ⟨ev', hr, h1, h2, h3⟩ := reads_record s.event t.entries[i].2 _ _ _ _ h.kept
      obtain ⟨x', e1, e2, e3⟩ := hr.there h.x h.err t.entries[i].1 (h.points _ (List.getElem_mem hi))
      rw [e1]
      simp only [e3, not_true, if_false]
      have hready : ∀ w a c p, Kept ev' w a c p →
          Ready { s with x := x', event := ev', table := { s.table with ievt := s.table.ievt + 1 } } file t (i + 1) ts w a c p := fun w a c p hk =>
        ⟨e2, e3, ⟨by rw [← h.table.ievt], h.table.next, h.table.num, h.table.ptrs⟩, hi, h.points, h.tables, hk⟩
      have hlen : (remaining t (i + 1) ts).length + 1 = (remaining t i ts).length := by rw [hrem]; rfl
      cases he : t.entries[i].2.event with
      | none =>
        obtain ⟨h4, h5⟩ := h2 he
        rw [if_pos h4]
        have hev : eventsOf (remaining t i ts) = eventsOf (remaining t (i + 1) ts) := by
          rw [hrem]; unfold eventsOf; rw [List.filterMap_cons_none (by rw [he]; rfl)]
        have := ih _ t (i + 1) ts (hready _ _ _ _ h5) (by omega)
        rw [hev]
        refine ⟨this.1, fun r e es hes => ?_⟩
        obtain ⟨s', t', i', ts', f1, f2, f3, f4, f5⟩ := this.2 r e es hes
        exact ⟨s', t', i', ts', f1, f2, f3, by omega, f5⟩
      | some e =>
        obtain ⟨h4, h5⟩ := h3 e he
        rw [if_neg (by rw [h4.full]; decide)]
        have hev : eventsOf (remaining t i ts) = (t.entries[i].2.run, e) :: eventsOf (remaining t (i + 1) ts) := by
          rw [hrem]; unfold eventsOf; rw [List.filterMap_cons_some (by rw [he]; rfl)]
        rw [hev]
        refine ⟨(fun hn => by cases hn), fun r e' es hes => ?_⟩
        cases hes
        have := hready _ _ _ _ (keptAfter_next (k := k) h5)
        exact ⟨_, t, i + 1, ts, rfl, this, rfl, by omega, h4, h1⟩
    · have hie : i = t.entries.length := Nat.le_antisymm h.le (by omega)
      rw [if_neg (by omega)]
      have hrem : remaining t i ts = ts.flatMap fun t => t.entries.map (·.2) := by
        unfold remaining
        rw [hie, List.drop_length]; rfl
      cases ts with
      | nil =>
        have hn : t.next = -2 := h.tables.of_nil
        rw [if_pos (by rw [h.table.next]; exact hn)]
        refine ⟨fun _ => ⟨_, rfl, rfl, ?_, ?_⟩, fun r e es hes => ?_⟩
        · show ¬ (s.table.ievt : Int) < s.table.numEvts
          rw [h.table.ievt, h.table.num]; omega
        · show s.table.nextlocator = -2
          rw [h.table.next]; exact hn
        · rw [hrem] at hes; cases hes
      | cons t2 ts =>
        obtain ⟨pos, hpos, hst, hpt, hmore⟩ : ∃ pos : Nat, t.next = pos ∧ StoredAt file pos t2.items ∧ t2.Points file ∧ HepTables file t2.next ts := h.tables.of_cons
        obtain ⟨lt, hr, hlt⟩ := reads_table s.table t2
        obtain ⟨x', e1, e2, e3⟩ := hr.there h.x h.err pos hst
        rw [h.table.next, hpos, if_neg (by omega), if_neg (by omega)]
        simp only [filePosition_nat s.x h.x.opened, ne_eq, not_true, if_false]
        rw [e1]
        simp only [e3, not_true, if_false]
        have hrem2 : remaining t2 0 ts = remaining t i (t2 :: ts) := by
          rw [hrem]; unfold remaining; rw [List.drop_zero]; rfl
        have := ih { s with x := x', table := lt } t2 0 ts ⟨e2, e3, hlt, Nat.zero_le _, hpt, hmore, h.kept⟩ (by rw [hrem2]; simp only [List.length_cons] at hf; omega)
        rw [hrem2] at this
        refine ⟨this.1, fun r e es hes => ?_⟩
        obtain ⟨s', t', i', ts', f1, f2, f3, f4, f5⟩ := this.2 r e es hes
        exact ⟨s', t', i', ts', f1, f2, f3, by simp only [List.length_cons]; omega, f5⟩

end Util
