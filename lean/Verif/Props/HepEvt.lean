import Verif.Spec.HepEvt
import Verif.Util.StdHepLemmas4
/-
Properties of the conversion to and from the common block HEPEVT: C73.
-/
namespace Props
open Sio Spec Util Lcio

theorem hevPosition_get {col : List Nat} {p : Nat} (h : p ∈ col) : ∃ i : Nat, hevPosition col p = (i : Int) + 1 ∧ col[i]? = some p ∧ i < col.length := by
  refine ⟨col.idxOf p, if_pos h, ?_, List.idxOf_lt_length_of_mem h⟩
  rw [List.getElem?_eq_getElem (List.idxOf_lt_length_of_mem h)]
  simp

theorem hevPosition_nodup {col : List Nat} (hn : col.Nodup) {i p : Nat} (h : col[i]? = some p) : hevPosition col p = (i : Int) + 1 := by
  obtain ⟨k, hk, hp, _⟩ := hevPosition_get (List.mem_of_getElem? h)
  rw [hk]
  have : k = i := by
    obtain ⟨hk', e1⟩ := List.getElem?_eq_some_iff.1 hp
    obtain ⟨hi', e2⟩ := List.getElem?_eq_some_iff.1 h
    exact (List.getElem_inj hn).1 (e1.trans e2.symm)
  rw [this]

/-- What the loop leaves in an entry. -/
structure Filled (ar : HevArith) (mem : HevMem) (col : List Nat) (a : Nat) (l : HevLine) : Prop where
  same : SameEntry (mem a) l
  pointer : l.pointer = a
  energy : l.energy = ar.energy (mem a).momentum (mem a).mass
  mother1 : l.mother1 = hevFirst col (mem a).parents
  mother2 : l.mother2 = hevSecond col (mem a).parents
  daughter1 : l.daughter1 = hevDaughter col (mem a)
  daughter2 : l.daughter2 = if l.daughter1 > 0 then l.daughter1 + (mem a).daughters.length - 1 else 0

theorem hevTime_ok (ar : HevArith) (mem : HevMem) (col : List Nat) (c : HevCommon) (mcp : HevParticle) (hp : ∀ p ∈ mcp.parents, p ∈ col) :
    ∃ t, hevTime ar mem col c mcp = .ok t := by
  unfold hevTime
  cases hps : mcp.parents with
  | nil => exact ⟨0, rfl⟩
  | cons p ps =>
    cases hl : ar.largest mcp.vertex with
    | none => exact ⟨0, rfl⟩
    | some k =>
      obtain ⟨i, hi, _, _⟩ := hevPosition_get (hp p (by simp [hps]))
      have h0 : hevFirst col (p :: ps) > 0 := by show hevPosition col p > 0; omega
      simp only [List.head?_cons]
      rw [if_pos h0]
      exact ⟨_, rfl⟩

theorem hevFill_ok (ar : HevArith) (mem : HevMem) (col : List Nat) (c : HevCommon) (j a : Nat) (hj : j < 4000) (hp : ∀ p ∈ (mem a).parents, p ∈ col) :
    ∃ l, Filled ar mem col a l ∧ hevFill ar mem col c j a = .ok { c with line := fun i => if i = j then l else c.line i } := by
  obtain ⟨t, ht⟩ := hevTime_ok ar mem col c (mem a) hp
  unfold hevFill
  rw [if_neg (by unfold nmxhep; omega)]
  simp only [ht, bind, Except.bind]
  exact ⟨_, ⟨⟨rfl, rfl, rfl, rfl, rfl, rfl⟩, rfl, rfl, rfl, rfl, rfl, rfl⟩, rfl⟩

theorem hevFillFrom_ok (ar : HevArith) (mem : HevMem) (col : List Nat) (as : List Nat) : ∀ (j : Nat) (c : HevCommon), j + as.length ≤ 4000 →
    (∀ a ∈ as, ∀ p ∈ (mem a).parents, p ∈ col) →
    ∃ c', hevFillFrom ar mem col j as c = .ok c' ∧ c'.nhep = c.nhep ∧ c'.nevhep = c.nevhep ∧
      (∀ i a, as[i]? = some a → Filled ar mem col a (c'.line (j + i))) ∧ ∀ i, (i < j ∨ j + as.length ≤ i) → c'.line i = c.line i := by
  induction as with
  | nil => intro j c _ _; exact ⟨c, rfl, rfl, rfl, by simp, by simp⟩
  | cons a as ih =>
    intro j c hj hp
    simp only [List.length_cons] at hj
    obtain ⟨l, hl, e⟩ := hevFill_ok ar mem col c j a (by omega) (hp a (by simp))
    obtain ⟨c', e', h1, h2, h3, h4⟩ := ih (j + 1) { c with line := fun i => if i = j then l else c.line i } (by omega) fun b hb => hp b (by simp [hb])
    refine ⟨c', ?_, h1, h2, ?_, ?_⟩
    · unfold hevFillFrom
      rw [e]; exact e'
    · intro i b hb
      cases i with
      | zero =>
        simp only [List.getElem?_cons_zero, Option.some.injEq] at hb
        subst hb
        rw [h4 _ (by omega)]
        simp only [Nat.add_zero, if_true]
        exact hl
      | succ i =>
        simp only [List.getElem?_cons_succ] at hb
        have := h3 i b hb
        rw [Nat.add_right_comm] at this
        exact this
    · intro i hi
      simp only [List.length_cons] at hi
      rw [h4 i (by omega)]
      simp only []
      rw [if_neg (by omega)]

/-- **C73.** The common block has an entry for each particle of the collection, in order, with its attributes, a pointer to it, its first mother, its last
mother if there are more, and its first daughter; there is room for 4000 particles. -/
theorem C73_to_partial (ar : HevArith) (mem : HevMem) (number : Int) (col : List Nat) (c : HevCommon) (hlen : col.length ≤ 4000)
    (hin : ∀ a ∈ col, ∀ p ∈ (mem a).parents, p ∈ col) :
    ∃ c', toHepEvt ar mem number col c = .ok c' ∧ c'.nevhep = number ∧ c'.nhep = col.length ∧
      ∀ (j a : Nat), col[j]? = some a →
        SameEntry (mem a) (c'.line j) ∧ (c'.line j).pointer = a ∧
        ((mem a).parents = [] → entryMothers (c'.line j) = []) ∧
        (∀ p ∈ (mem a).parents.head?, ∃ i : Nat, (c'.line j).mother1 = (i : Int) + 1 ∧ col[i]? = some p) ∧
        (∀ p ∈ (mem a).parents.getLast?, (mem a).parents.length > 1 → ∃ i : Nat, (c'.line j).mother2 = (i : Int) + 1 ∧ col[i]? = some p) ∧
        ((mem a).parents.length ≤ 1 → (c'.line j).mother2 = 0) ∧
        ((mem a).status = 3 → entryDaughters (c'.line j) = []) ∧
        (∀ d ∈ (mem a).daughters.head?, d ∈ col → (mem a).status ≠ 3 →
          ∃ i : Nat, (c'.line j).daughter1 = (i : Int) + 1 ∧ col[i]? = some d ∧ (entryDaughters (c'.line j)).length = (mem a).daughters.length) := by
  obtain ⟨c', e, h1, h2, h3, _⟩ := hevFillFrom_ok ar mem col col 0 { c with nevhep := number, nhep := col.length } (by omega) hin
  refine ⟨c', e, h2, h1, ?_⟩
  intro j a hj
  have hf := h3 j a hj
  rw [Nat.zero_add] at hf
  have ha : a ∈ col := List.mem_of_getElem? hj
  refine ⟨hf.same, hf.pointer, ?_, ?_, ?_, ?_, ?_, ?_⟩
  · intro hp
    have := hf.mother1
    rw [hp] at this
    unfold entryMothers
    rw [if_pos (by rw [this]; exact Int.le_refl 0)]
  · intro p hp
    have := hf.mother1
    cases hps : (mem a).parents with
    | nil => rw [hps] at hp; simp at hp
    | cons q qs =>
      rw [hps] at hp this
      obtain rfl : q = p := by simpa using hp
      obtain ⟨i, hi, hg, _⟩ := hevPosition_get (hin a ha q (by simp [hps]))
      exact ⟨i, by rw [this]; exact hi, hg⟩
  · intro p hp hl
    have hm1 : (c'.line j).mother1 > 0 := by
      have := hf.mother1
      cases hps : (mem a).parents with
      | nil => rw [hps] at hp; simp at hp
      | cons q qs =>
        rw [hps] at this
        obtain ⟨i, hi, hg, _⟩ := hevPosition_get (hin a ha q (by simp [hps]))
        have h' : hevFirst col (q :: qs) = hevPosition col q := rfl
        omega
    have := hf.mother2
    unfold hevSecond at this
    rw [if_pos ⟨by rw [← hf.mother1]; exact hm1, hl⟩, hp] at this
    obtain ⟨i, hi, hg, _⟩ := hevPosition_get (hin a ha p (List.mem_of_getLast? hp))
    exact ⟨i, by rw [this]; exact hi, hg⟩
  · intro hl
    rw [hf.mother2]
    unfold hevSecond
    rw [if_neg (by omega)]
  · intro hs
    unfold entryDaughters
    rw [if_pos]
    rw [hf.daughter1]
    unfold hevDaughter
    rw [if_neg (by simpa using hs)]
    exact Int.le_refl 0
  · intro d hd hdc hs
    cases hds : (mem a).daughters with
    | nil => rw [hds] at hd; simp at hd
    | cons q qs =>
      rw [hds] at hd
      obtain rfl : q = d := by simpa using hd
      obtain ⟨i, hi, hg, _⟩ := hevPosition_get hdc
      have h1 : (c'.line j).daughter1 = (i : Int) + 1 := by rw [hf.daughter1]; unfold hevDaughter; rw [if_pos hs, hds]; exact hi
      refine ⟨i, h1, hg, ?_⟩
      have h2 := hf.daughter2
      rw [if_pos (by omega), hds] at h2
      unfold entryDaughters
      rw [if_neg (by omega), List.length_range', h2]
      simp only [List.length_cons]
      omega

theorem hevParent_heap (n : Nat) (P D : Nat → List Nat) (j i : Nat) (hj : j < n) (hi : i < n) (hp : i ∉ P j) :
    hevParent n j (heapOf n P D) (i : Int) = .ok (heapOf n (updAt P j (P j ++ [i])) (updAt D i (D i ++ [j]))) := by
  unfold hevParent
  rw [if_neg (by omega), Int.toNat_natCast, addParent_heap n P D j i hj hi hp]

/-- All particles of a list become parents of one. -/
theorem hevParent_all (n j : Nat) (hj : j < n) : ∀ (is : List Nat) (P D : Nat → List Nat), is.Nodup → (∀ i ∈ is, i < n ∧ i ∉ P j) →
    is.foldlM (fun h (i : Nat) => hevParent n j h (i : Int)) (heapOf n P D) =
      .ok (heapOf n (updAt P j (P j ++ is)) (fun a => if a ∈ is then D a ++ [j] else D a)) := by
  intro is
  induction is with
  | nil =>
    intro P D _ _
    show Except.ok _ = _
    congr 2
    · funext a; simp [updAt]; intro h; rw [h]
  | cons i is ih =>
    intro P D hn hb
    rw [List.foldlM_cons, hevParent_heap n P D j i hj (hb i (by simp)).1 (hb i (by simp)).2]
    rw [List.nodup_cons] at hn
    have := ih (updAt P j (P j ++ [i])) (updAt D i (D i ++ [j])) hn.2 fun k hk => by
      refine ⟨(hb k (by simp [hk])).1, ?_⟩
      have hne : k ≠ i := fun h => hn.1 (h ▸ hk)
      simpa [updAt, hne] using (hb k (by simp [hk])).2
    refine this.trans ?_
    congr 2
    · funext a
      by_cases ha : a = j
      · subst ha; simp [updAt]
      · simp [updAt, ha]
    · funext a
      by_cases ha : a = i
      · subst ha; simp [updAt, hn.1]
      · simp [updAt, ha]

theorem mothersOf_nodup (l : HevLine) : (entryMothers l).Nodup := by
  unfold entryMothers
  split
  · simp
  · split
    · simp
    · exact List.nodup_range' 

/-- One element gets its parents. -/
theorem hevParents_ok (n : Nat) (c : HevCommon) (P D : Nat → List Nat) (j : Nat) (hj : j < n) (hP : P j = []) (hb : ∀ i ∈ entryMothers (c.line j), i < n) :
    hevParents n c (heapOf n P D) j =
      .ok (heapOf n (updAt P j (entryMothers (c.line j))) (fun a => if a ∈ entryMothers (c.line j) then D a ++ [j] else D a)) := by
  have key := hevParent_all n j hj (entryMothers (c.line j)) P D (mothersOf_nodup _) fun i hi => ⟨hb i hi, by simp [hP]⟩
  rw [hP, List.nil_append] at key
  rw [← key]
  unfold hevParents entryMothers
  simp only [gt_iff_lt]
  by_cases h1 : (c.line j).mother1 ≤ 0
  · rw [if_neg (by omega), if_pos h1]; rfl
  · rw [if_pos (by omega), if_neg h1]
    have e1 : (c.line j).mother1 - 1 = (((c.line j).mother1 - 1).toNat : Int) := by omega
    by_cases h2 : (c.line j).mother2 ≤ (c.line j).mother1
    · rw [if_pos h2]
      have hr : (List.range ((c.line j).mother2 - (c.line j).mother1).toNat) = [] := by
        rw [show ((c.line j).mother2 - (c.line j).mother1).toNat = 0 by omega]; rfl
      rw [hr, List.foldlM_cons, ← e1]
      simp only [List.foldlM_nil]
      congr 1
      funext h
      split <;> rfl
    · rw [if_neg h2]
      have h02 : 0 < (c.line j).mother2 := by omega
      simp only [if_pos h02]
      have e2 : ((c.line j).mother2 - (c.line j).mother1 + 1).toNat = ((c.line j).mother2 - (c.line j).mother1).toNat + 1 := by omega
      rw [e2, List.range'_succ, List.foldlM_cons, ← e1]
      congr 1
      funext h
      have e3 : List.range' (((c.line j).mother1 - 1).toNat + 1) ((c.line j).mother2 - (c.line j).mother1).toNat =
          (List.range ((c.line j).mother2 - (c.line j).mother1).toNat).map (fun k => (c.line j).mother1.toNat + k) := by
        rw [show ((c.line j).mother1 - 1).toNat + 1 = (c.line j).mother1.toNat by omega, List.range'_eq_map_range]
      rw [e3, List.foldlM_map]
      congr 1
      funext h k
      congr 1
      omega

/-- **C73.** fromHepEvt makes one particle for each entry, in order, with its attributes, whose parents are the mothers of the entry; the daughters of a
particle are those whose mother it is, in order. -/
theorem C73_from (ar : HevArith) (c : HevCommon) (hn : c.nhep ≤ 4000) (hm : ∀ j < c.nhep.toNat, ∀ i ∈ entryMothers (c.line j), i < c.nhep.toNat) :
    ∃ ps, hevCollection ar c = .ok ps ∧ ps.length = c.nhep.toNat ∧
      ∀ (j : Nat) q, ps[j]? = some q →
        q.pdg = (c.line j).idhep ∧ q.status = (c.line j).isthep ∧
        q.momentum = (ar.toFloat (c.line j).momentum.1, ar.toFloat (c.line j).momentum.2.1, ar.toFloat (c.line j).momentum.2.2) ∧
        q.mass = ar.toFloat (c.line j).mass ∧ q.vertex = (c.line j).vertex ∧ q.charge = (c.line j).charge ∧
        q.parents = entryMothers (c.line j) ∧
        q.daughters = (List.range c.nhep.toNat).filter fun k => j ∈ entryMothers (c.line k) := by
  generalize hN : c.nhep.toNat = n at *
  have loop : ∀ k ≤ n, (List.range k).foldlM (hevParents n c) (fun a => if a < n then some {} else none) =
      .ok (heapOf n (fun j => if j < k then entryMothers (c.line j) else []) (fun a => (List.range k).filter fun i => a ∈ entryMothers (c.line i))) := by
    intro k
    induction k with
    | zero =>
      intro _
      show Except.ok _ = _
      congr 1
    | succ k ih =>
      intro hk
      rw [List.range_succ, List.foldlM_append, ih (by omega)]
      simp only [bind, Except.bind, List.foldlM_cons, List.foldlM_nil]
      rw [hevParents_ok n c _ _ k (by omega) (by simp) (hm k (by omega))]
      simp only [pure, Except.pure]
      congr 2
      · funext a
        unfold updAt
        by_cases ha : a = k
        · subst ha; simp
        · by_cases h : a < k
          · simp [ha, h, show a < k + 1 by omega]
          · simp [ha, h, show ¬ a < k + 1 by omega]
      · funext a
        rw [List.filter_append]
        by_cases h : a ∈ entryMothers (c.line k)
        · simp [h]
        · simp [h]
  unfold hevCollection
  simp only [hN]
  rw [if_neg (by unfold nmxhep; omega), loop n (Nat.le_refl _)]
  refine ⟨_, rfl, by simp, ?_⟩
  intro j q hq
  rw [List.getElem?_map] at hq
  cases hr : (List.range n)[j]? with
  | none => rw [hr] at hq; cases hq
  | some j' =>
    have hjn : j < n := by
      have := (List.getElem?_eq_some_iff.1 hr).1
      simpa using this
    obtain rfl : j' = j := by
      rw [List.getElem?_range hjn] at hr; cases hr; rfl
    rw [hr] at hq
    simp only [Option.map_some, Option.some.injEq] at hq
    subst hq
    refine ⟨rfl, rfl, rfl, rfl, rfl, rfl, ?_, ?_⟩
    · simp [heapOf, hjn]
    · simp [heapOf, hjn]

/-- **C73.** Events that are written to the common block and read from it again have the same particles in the same order, with the same attributes
(momentum and mass as `float`), the same parents and the same daughters; the pointers in the common block are those of the new particles. The parents of a
particle have to be consecutive elements of the collection. -/
theorem C73_round_trip_partial (ar : HevArith) (mem : HevMem) (number : Int) (col : List Nat) (c : HevCommon) (base : Nat) (evt : List (List Byte × List Nat))
    (hlen : col.length ≤ 4000) (hnd : col.Nodup) (pos : Nat → List Nat)
    (hpar : ∀ (j a : Nat), col[j]? = some a → ConsecutiveIn col (mem a).parents (pos j)) (hname : evt.lookup (str "MCParticle") = none) :
    ∃ c' ps c'', toHepEvt ar mem number col c = .ok c' ∧ fromHepEvt ar base evt none c' = .ok (ps, c'') ∧ ps.length = col.length ∧
      (∀ (j a : Nat) q, col[j]? = some a → ps[j]? = some q →
        SameUpToFloat ar (mem a) q ∧ q.parents = pos j ∧ q.daughters = (List.range col.length).filter fun k => j ∈ pos k) ∧
      ∀ j < col.length, (c''.line j).pointer = base + j := by
  have hin : ∀ a ∈ col, ∀ p ∈ (mem a).parents, p ∈ col := by
    intro a ha p hp
    obtain ⟨j, hj⟩ := List.getElem?_of_mem ha
    have h2 := (hpar j a hj).2
    have : some p ∈ (mem a).parents.map some := List.mem_map.2 ⟨p, hp, rfl⟩
    rw [h2] at this
    obtain ⟨i, _, hi⟩ := List.mem_map.1 this
    exact List.mem_of_getElem? hi
  obtain ⟨c', e, _, hn, hc'⟩ := C73_to_partial ar mem number col c hlen hin
  have hmo : ∀ (j a : Nat), col[j]? = some a → entryMothers (c'.line j) = pos j := by
    intro j a hj
    obtain ⟨_, _, h0, h1, h2, h3, _⟩ := hc' j a hj
    obtain ⟨hp1, hp2⟩ := hpar j a hj
    have hl : (mem a).parents.length = (pos j).length := by simpa using congrArg List.length hp2
    cases hps : (mem a).parents with
    | nil =>
      rw [h0 hps]
      rw [hps] at hl
      exact (List.length_eq_zero_iff.1 hl.symm).symm
    | cons p ps =>
      cases hpos : pos j with
      | nil => rw [hps, hpos] at hl; simp at hl
      | cons i is =>
        rw [hps, hpos] at hp2
        simp only [List.map_cons, List.cons.injEq] at hp2
        obtain ⟨i', hi', hg⟩ := h1 p (by simp [hps])
        have hii : i' = i := by
          have a1 := hevPosition_nodup hnd hg
          have a2 := hevPosition_nodup hnd hp2.1.symm
          omega
        subst hii
        rw [hpos] at hp1
        simp only [List.headD_cons, List.length_cons] at hp1
        cases ps with
        | nil =>
          have his : is = [] := by
            rw [hps, hpos] at hl; simp at hl; exact hl
          have hm2 := h3 (by simp [hps])
          unfold entryMothers
          rw [if_neg (by omega), if_pos (by omega), hi', his]
          simp
        | cons p2 ps2 =>
          have hlen2 : is.length = ps2.length + 1 := by rw [hps, hpos] at hl; simpa using hl.symm
          -- the last parent
          obtain ⟨pl, hpl⟩ : ∃ pl, (mem a).parents.getLast? = some pl := by
            rw [hps]; exact ⟨_, List.getLast?_eq_some_getLast (by simp)⟩
          obtain ⟨k, hk, hgk⟩ := h2 pl hpl (by simp [hps])
          have hlast : col[i' + is.length]? = some pl := by
            have hq : (((p :: p2 :: ps2).map some).getLast?) = some (some pl) := by
              rw [List.getLast?_map, ← hps, hpl]; rfl
            have hq2 : ((i' :: is).map (col[·]?)).getLast? = some (some pl) := by
              rw [← hq, List.map_cons, List.map_cons, hp2.1, hp2.2]
            rw [hp1, List.getLast?_map, List.getLast?_range'] at hq2
            simpa using hq2
          have hkk : k = i' + is.length := by
            have a1 := hevPosition_nodup hnd hgk
            have a2 := hevPosition_nodup hnd hlast
            omega
          unfold entryMothers
          rw [if_neg (by omega), if_neg (by omega), hi', hk, hkk, hp1]
          congr 1
          · omega
          · omega
  have hcn : c'.nhep.toNat = col.length := by rw [hn]; simp
  have hmem : ∀ j < col.length, ∃ a, col[j]? = some a := fun j hj => ⟨col[j], List.getElem?_eq_getElem hj⟩
  have hpos : ∀ j < col.length, ∀ i ∈ pos j, i < col.length := by
    intro j hj i hi
    obtain ⟨a, ha⟩ := hmem j hj
    have h2 := (hpar j a ha).2
    have : col[i]? ∈ (pos j).map (col[·]?) := List.mem_map.2 ⟨i, hi, rfl⟩
    rw [← h2] at this
    obtain ⟨p, _, hp⟩ := List.mem_map.1 this
    exact (List.getElem?_eq_some_iff.1 hp.symm).1
  obtain ⟨ps, eps, hpl, hps⟩ := C73_from ar c' (by rw [hn]; omega) (by
    rw [hcn]
    intro j hj i hi
    obtain ⟨a, ha⟩ := hmem j hj
    rw [hmo j a ha] at hi
    exact hpos j hj i hi)
  rw [hcn] at hpl hps
  refine ⟨c', ps, { c' with line := fun i => match ((List.range ps.length).map (base + ·))[i]? with | some a => { c'.line i with pointer := a } | none => c'.line i }, e, ?_, hpl, ?_, ?_⟩
  · unfold fromHepEvt
    simp only [eps, bind, Except.bind, Option.getD_none, hname, Option.isSome_none, Bool.false_eq_true, if_false, List.lookup_cons, beq_self_eq_true]
    rw [if_neg (by simp [hpl, nmxhep]; omega)]
    rfl
  · intro j a q ha hq
    obtain ⟨q1, q2, q3, q4, q5, q6, q7, q8⟩ := hps j q hq
    obtain ⟨s, _⟩ := hc' j a ha
    refine ⟨⟨by rw [q1, s.pdg], by rw [q2, s.status], by rw [q3, s.momentum], by rw [q4, s.mass], by rw [q5, s.vertex], by rw [q6, s.charge]⟩, ?_, ?_⟩
    · rw [q7, hmo j a ha]
    · rw [q8]
      apply List.filter_congr
      intro k hk
      obtain ⟨b, hb⟩ := hmem k (by simpa using hk)
      rw [hmo k b hb]
  · intro j hj
    simp [hpl, hj]

/-! Cases -/

/-- Some arithmetic. -/
def hevArith : HevArith :=
  { toFloat := id, energy := fun _ m => m, largest := fun v => if v = (0, 0, 0) then none else some 0, flight := fun t _ _ _ => t + 1 }

/-- Two particles that make a third one, at the addresses 10, 11 and 12. -/
def hevMem : HevMem := fun a =>
  if a = 12 then { pdg := 23, status := 2, momentum := (1, 2, 3), mass := 91, charge := 0, vertex := (1, 0, 0), parents := [10, 11] }
  else if a = 10 then { pdg := 11, momentum := (0, 0, 125), mass := 1, charge := 5, vertex := (0, 0, 0), daughters := [12] }
  else { pdg := -11, momentum := (0, 0, 126), mass := 1, charge := 6, vertex := (0, 0, 0), daughters := [12] }

/-- They meet the hypotheses of the theorems. -/
example : ∃ c' ps c'', toHepEvt hevArith hevMem 7 [10, 11, 12] {} = .ok c' ∧ fromHepEvt hevArith 100 [] none c' = .ok (ps, c'') ∧
    ps.map (·.parents) = [[], [], [0, 1]] ∧ ps.map (·.daughters) = [[2], [2], []] ∧ ps.map (·.pdg) = [11, -11, 23] := by
  obtain ⟨c', ps, c'', e1, e2, hl, h, _⟩ := C73_round_trip_partial hevArith hevMem 7 [10, 11, 12] {} 100 [] (by decide) (by decide)
    (fun j => if j = 2 then [0, 1] else [])
    (by
      intro j a hj
      match j with
      | 0 => cases hj; exact ⟨rfl, rfl⟩
      | 1 => cases hj; exact ⟨rfl, rfl⟩
      | 2 => cases hj; exact ⟨rfl, rfl⟩
      | k + 3 => simp at hj)
    rfl
  refine ⟨c', ps, c'', e1, e2, ?_⟩
  match ps, hl with
  | [p, q, r], _ =>
    obtain ⟨s0, a0, b0⟩ := h 0 10 p rfl rfl
    obtain ⟨s1, a1, b1⟩ := h 1 11 q rfl rfl
    obtain ⟨s2, a2, b2⟩ := h 2 12 r rfl rfl
    simp only [List.map_cons, List.map_nil, a0, a1, a2, b0, b1, b2, s0.pdg, s1.pdg, s2.pdg]
    decide

theorem hevFill_many (ar : HevArith) (mem : HevMem) (col : List Nat) (as : List Nat) : ∀ (j : Nat) (c : HevCommon), 4000 < j + as.length → as ≠ [] →
    (∀ a ∈ as, ∀ p ∈ (mem a).parents, p ∈ col) → hevFillFrom ar mem col j as c = .error .ub := by
  induction as with
  | nil => intro j c _ h _; exact absurd rfl h
  | cons a as ih =>
    intro j c hj _ hp
    simp only [List.length_cons] at hj
    unfold hevFillFrom
    by_cases h : j < 4000
    · obtain ⟨l, _, e⟩ := hevFill_ok ar mem col c j a h (hp a (by simp))
      rw [e]
      refine ih (j + 1) _ (by omega) ?_ fun b hb => hp b (by simp [hb])
      intro h0
      rw [h0] at hj
      simp at hj
      omega
    · unfold hevFill
      rw [if_pos (by unfold nmxhep; omega)]
      rfl

/-- **C73 is false** for more than 4000 particles: the arrays are written behind their end. -/
theorem C73_fails_too_many (ar : HevArith) (mem : HevMem) (number : Int) (col : List Nat) (c : HevCommon) (hlen : 4000 < col.length)
    (hin : ∀ a ∈ col, ∀ p ∈ (mem a).parents, p ∈ col) : toHepEvt ar mem number col c = .error .ub := by
  refine hevFill_many ar mem col col 0 _ (by omega) ?_ hin
  intro h
  rw [h] at hlen
  simp at hlen

/-- **C73 is false** if the parent of a particle is not in the collection (and the particle not at the origin): the array is read before its beginning. -/
theorem C73_fails_mother_outside : ∃ (mem : HevMem) (col : List Nat), col = [12] ∧ (mem 12).parents = [10] ∧
    ∀ number c, toHepEvt hevArith mem number col c = .error .ub := by
  refine ⟨fun a => { pdg := 13, momentum := (0, 0, 0), mass := 0, charge := 0, vertex := (1, 0, 0), parents := if a = 12 then [10] else [] }, [12], rfl, rfl, ?_⟩
  intro number c
  rfl

/-- **C73 is false** for parents that are not consecutive elements: those between them become parents too. -/
theorem C73_fails_gap : ∃ (mem : HevMem) (col : List Nat), col = [0, 1, 2, 3] ∧ (mem 3).parents = [0, 2] ∧
    ∃ c' ps c'', toHepEvt hevArith mem 0 col {} = .ok c' ∧ fromHepEvt hevArith 0 [] none c' = .ok (ps, c'') ∧ ps.map (·.parents) = [[], [], [], [0, 1, 2]] := by
  refine ⟨fun a => { pdg := 13, momentum := (0, 0, 0), mass := 0, charge := 0, vertex := (0, 0, 0), parents := if a = 3 then [0, 2] else [] }, [0, 1, 2, 3], rfl, rfl, ?_⟩
  exact ⟨_, _, _, rfl, rfl, by decide +kernel⟩

/-- **C73 is false** for daughters that are not consecutive elements, as far as the common block is concerned: it has others in their place. -/
theorem C73_fails_daughters : ∃ (mem : HevMem) (col : List Nat), col = [0, 1, 2, 3] ∧ (mem 0).daughters = [1, 3] ∧
    ∃ c', toHepEvt hevArith mem 0 col {} = .ok c' ∧ entryDaughters (c'.line 0) = [1, 2] := by
  refine ⟨fun a => { pdg := 13, momentum := (0, 0, 0), mass := 0, charge := 0, vertex := (0, 0, 0), parents := if a = 1 ∨ a = 3 then [0] else [], daughters := if a = 0 then [1, 3] else [] }, [0, 1, 2, 3], rfl, rfl, ?_⟩
  exact ⟨_, rfl, by decide +kernel⟩

/-- Steps that are undefined or succeed: if one of them is undefined for all states, all of them are together. -/
theorem foldlM_ub {α σ : Type} (f : σ → α → Except Err σ) (hf : ∀ s a, (∃ s', f s a = .ok s') ∨ f s a = .error .ub) (l : List α) (a : α) (ha : a ∈ l)
    (hub : ∀ s, f s a = .error .ub) (s : σ) : l.foldlM f s = .error .ub := by
  induction l generalizing s with
  | nil => cases ha
  | cons b l ih =>
    rw [List.foldlM_cons]
    rcases hf s b with ⟨s', h⟩ | h
    · rw [h]
      rcases List.mem_cons.1 ha with rfl | ha
      · rw [hub] at h; cases h
      · exact ih ha s'
    · rw [h]; rfl

theorem foldlM_okOrUb {α σ : Type} (f : σ → α → Except Err σ) (hf : ∀ s a, (∃ s', f s a = .ok s') ∨ f s a = .error .ub) (l : List α) (s : σ) :
    (∃ s', l.foldlM f s = .ok s') ∨ l.foldlM f s = .error .ub := by
  induction l generalizing s with
  | nil => exact Or.inl ⟨s, rfl⟩
  | cons b l ih =>
    rw [List.foldlM_cons]
    rcases hf s b with ⟨s', h⟩ | h
    · rw [h]; exact ih s'
    · rw [h]; exact Or.inr rfl

theorem hevParent_okOrUb (n j : Nat) (h : PHeap) (i : Int) : (∃ h', hevParent n j h i = .ok h') ∨ hevParent n j h i = .error .ub := by
  unfold hevParent
  split
  · exact Or.inr rfl
  · exact Or.inl ⟨_, rfl⟩

theorem hevParents_okOrUb (n : Nat) (c : HevCommon) (h : PHeap) (j : Nat) : (∃ h', hevParents n c h j = .ok h') ∨ hevParents n c h j = .error .ub := by
  unfold hevParents
  simp only
  split
  · rcases hevParent_okOrUb n j h ((c.line j).mother1 - 1) with ⟨h', e⟩ | e
    · rw [e]
      simp only [bind, Except.bind]
      split
      · exact foldlM_okOrUb _ (fun h k => hevParent_okOrUb n j h _) _ _
      · exact Or.inl ⟨_, rfl⟩
    · rw [e]; exact Or.inr rfl
  · exact Or.inl ⟨_, rfl⟩

theorem hevParents_ub (n : Nat) (c : HevCommon) (j i : Nat) (hi : i ∈ entryMothers (c.line j)) (hn : n ≤ i) (h : PHeap) : hevParents n c h j = .error .ub := by
  unfold entryMothers at hi
  unfold hevParents
  simp only
  by_cases h1 : (c.line j).mother1 ≤ 0
  · rw [if_pos h1] at hi; cases hi
  · rw [if_neg h1] at hi
    rw [if_pos (show (c.line j).mother1 > 0 by omega)]
    have out : ∀ (h : PHeap) (x : Int), (n : Int) ≤ x → hevParent n j h x = .error .ub := by
      intro h x hx; unfold hevParent; rw [if_pos (Or.inr hx)]
    by_cases h2 : (c.line j).mother2 ≤ (c.line j).mother1
    · rw [if_pos h2] at hi
      rw [List.mem_singleton] at hi
      rw [out _ _ (by omega)]; rfl
    · rw [if_neg h2, List.mem_range'_1] at hi
      rcases hevParent_okOrUb n j h ((c.line j).mother1 - 1) with ⟨h', e⟩ | e
      · rw [e]
        simp only [bind, Except.bind]
        rw [if_pos (show (c.line j).mother2 > 0 by omega)]
        by_cases h0 : (n : Int) ≤ (c.line j).mother1 - 1
        · rw [out _ _ h0] at e; cases e
        · refine foldlM_ub _ (fun h k => hevParent_okOrUb n j h _) _ (i - (c.line j).mother1.toNat) ?_ (fun s => out _ _ ?_) _
          · rw [List.mem_range]; omega
          · omega
      · rw [e]; rfl

/-- **C73 is false** for a common block with an entry that names a mother behind the last entry: for every such common block, elements behind the end of the collection
are used. -/
theorem C73_fails_wrong_mothers (ar : HevArith) (c : HevCommon) (j i : Nat) (hj : j < c.nhep.toNat) (hi : i ∈ entryMothers (c.line j)) (hn : c.nhep.toNat ≤ i) :
    hevCollection ar c = .error .ub := by
  unfold hevCollection
  simp only
  split
  · rfl
  · rw [foldlM_ub _ (hevParents_okOrUb _ c) _ j (List.mem_range.2 hj) (hevParents_ub _ c j i hi hn)]
    rfl

/-- Two entries, the second of which names the entries 1 to 3 as mothers. -/
example : hevCollection hevArith { nhep := 2, line := fun j => if j = 1 then { mother1 := 1, mother2 := 3 } else {} } = .error .ub :=
  C73_fails_wrong_mothers hevArith _ 1 2 (by decide) (by decide) (by decide)

/-- **C73 is false** for other names of the collection than MCParticle: after the collection has been added, an exception is thrown unless the event has a
collection MCParticle too. -/
theorem C73_fails_name (ar : HevArith) (c : HevCommon) (base : Nat) (evt : List (List Byte × List Nat)) (name : List Byte) (hn : c.nhep ≤ 4000)
    (hm : ∀ j < c.nhep.toNat, ∀ i ∈ entryMothers (c.line j), i < c.nhep.toNat) (hname : name ≠ str "MCParticle") (hnew : evt.lookup name = none)
    (hmc : evt.lookup (str "MCParticle") = none) : fromHepEvt ar base evt (some name) c = .error .notAvailable := by
  obtain ⟨ps, e, _⟩ := C73_from ar c hn hm
  have hb : (str "MCParticle" == name) = false := by
    rw [beq_eq_false_iff_ne]; exact fun h => hname h.symm
  unfold fromHepEvt
  simp only [e, bind, Except.bind, Option.getD_some, hnew, Option.isSome_none, Bool.false_eq_true, if_false, List.lookup_cons, hb, hmc]

end Props
