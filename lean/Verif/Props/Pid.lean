import Verif.Util.PidLemmas
/-
C55: algorithms of particle identification.
-/
namespace Props
open Sio Lcio Util Spec

/-- The number of algorithms that are added. -/
def addCount (cs : List PidCall) : Nat := (cs.filter fun c => c ≠ .reload).length

theorem pid_calls (colType : Str) (ht : colType = str "ReconstructedParticle" ∨ colType = str "Cluster") (cs : List PidCall) (h : PidHandler) (p : Params) (A : Algorithms)
    (H : PidHolds h A) (hp : p.readOnly = false) (hn : A.length + addCount cs ≤ 2 ^ 31) :
    ∃ h' p', pidCalls colType h p cs = .ok ((pidAnswers A cs).1, h', p') ∧ PidHolds h' (pidAnswers A cs).2 ∧ p'.readOnly = false ∧
      (∀ key, key ≠ str "PIDAlgorithmTypeName" → (∀ n, key ≠ str "ParameterNames_" ++ n) → omFind strLt key p'.strs = omFind strLt key p.strs) ∧
      (∀ key, key ≠ str "PIDAlgorithmTypeID" → omFind strLt key p'.ints = omFind strLt key p.ints) ∧ p'.floats = p.floats := by
  induction cs generalizing h p A with
  | nil => exact ⟨h, p, rfl, H, hp, fun _ _ _ => rfl, fun _ _ => rfl, rfl⟩
  | cons c cs ih =>
    cases c with
    | add n ps =>
      have hc : addCount (.add n ps :: cs) = addCount cs + 1 := by
        simp [addCount]
      rw [hc] at hn
      rw [pidCalls, pidAnswers]
      by_cases hm : n ∈ A.map (·.1)
      · obtain ⟨h', p', g1, g2⟩ := ih h p A H hp (by omega)
        refine ⟨h', p', ?_, ?_⟩
        · rw [(H.add n ps).1 hm, if_pos hm]
          simp only [g1]; rfl
        · rw [if_pos hm]; exact g2
      · obtain ⟨h1, e1, H1⟩ := (H.add n ps).2 hm (by omega)
        obtain ⟨h', p', g1, g2⟩ := ih h1 p _ H1 hp (by rw [List.length_append]; simp only [List.length_cons, List.length_nil]; omega)
        refine ⟨h', p', ?_, ?_⟩
        · rw [e1, if_neg hm]
          simp only [g1]; rfl
        · rw [if_neg hm]; exact g2
    | reload =>
      have hc : addCount (.reload :: cs) = addCount cs := by simp [addCount]
      rw [hc] at hn
      rw [pidCalls, pidAnswers]
      obtain ⟨p1, d1, d2, d3, d4, d5⟩ := H.destroy (by omega) p hp
      obtain ⟨h1, e1, H1⟩ := d2.load colType ht
      obtain ⟨h', p', g1, g2, g3, g4, g5, g6⟩ := ih h1 p1 A H1 d2.writable hn
      refine ⟨h', p', ?_, g2, g3, ?_, ?_, g6.trans d5⟩
      · rw [d1]; simp only [e1]; exact g1
      · intro key k1 k2; rw [g4 key k1 k2]; exact d3 key k1 k2
      · intro key k1; rw [g5 key k1]; exact d4 key k1

/-- **C55**: on a collection of particles or clusters without algorithms, any sequence of additions, in which the handler may be destroyed and made anew from
the parameters of the collection at any point, gives the algorithms the numbers 0, 1, 2, ... in the order in which they were added; a name that is there is
refused; and at the end id, name and parameter names of every algorithm are found from each other, nothing else is, and all other parameters of the collection
are as before. (Fewer than 2^31 algorithms. One handler at a time: see `C55_fails_for_two_handlers`.) -/
theorem C55_algorithms_partial (colType : Str) (ht : colType = str "ReconstructedParticle" ∨ colType = str "Cluster") (p : Params) (hp : p.readOnly = false) (h0 : NoAlgorithms p)
    (cs : List PidCall) (hn : addCount cs ≤ 2 ^ 31) :
    ∃ h h' p', PidHandler.new colType p = (.ok h, p) ∧ pidCalls colType h p cs = .ok ((pidAnswers [] cs).1, h', p') ∧ Knows h' (pidAnswers [] cs).2 ∧
      ((pidAnswers [] cs).2.map (·.1)).Nodup ∧
      (∀ key, key ≠ str "PIDAlgorithmTypeName" → (∀ n, key ≠ str "ParameterNames_" ++ n) → omFind strLt key p'.strs = omFind strLt key p.strs) ∧
      (∀ key, key ≠ str "PIDAlgorithmTypeID" → omFind strLt key p'.ints = omFind strLt key p.ints) ∧ p'.floats = p.floats := by
  have hst : Stored p [] := by
    refine ⟨List.nodup_nil, by simp, ⟨[], List.Pairwise.nil, ?_, ?_, ?_⟩, ?_, hp⟩
    · rw [getVals]; rw [show omFind strLt pidKeyName p.strs = none from h0.1]; rfl
    · rw [getVals]; rw [show omFind strLt pidValueName p.ints = none from h0.2]; rfl
    · intro n i; simp
    · intro n ps h; cases h
  obtain ⟨h, e, H⟩ := hst.load colType ht
  obtain ⟨h', p', g1, g2, _, g4, g5, g6⟩ := pid_calls colType ht cs h p [] H hp (by simpa using hn)
  exact ⟨h, h', p', e, g1, g2.knows, g2.nodup, g4, g5, g6⟩

/-- A case for `C55_algorithms_partial`. -/
example : let cs : List PidCall := [.add (str "dEdx") [str "a", str "b"], .add (str "ToF") [], .reload, .add (str "dEdx") [], .add (str "BDT") [str "x"]]
    NoAlgorithms {} ∧ pidAnswers [] cs = ([some 0, some 1, none, some 2], [(str "dEdx", [str "a", str "b"]), (str "ToF", []), (str "BDT", [str "x"])]) ∧
    ((pidCalls (str "Cluster") {} {} cs).toOption.map fun r => (r.1, r.2.1.ids)) = some ([some 0, some 1, none, some 2], [1, 0, 2]) := by
  refine ⟨⟨rfl, rfl⟩, by decide +kernel, by decide +kernel⟩

/-- A handler depends on the parameters of the collection only through the values found in them, so that a collection read from a file, which has the same
values (see C62), gives the same handler. -/
theorem C55_from_values (colType : Str) (p q : Params) (hs : ∀ key, omFind strLt key q.strs = omFind strLt key p.strs)
    (hi : ∀ key, omFind strLt key q.ints = omFind strLt key p.ints) : (PidHandler.new colType q).1 = (PidHandler.new colType p).1 := by
  have hinit : cpmInit q = cpmInit p := by
    have g1 : ∀ key, getVals q.strs key [] = getVals p.strs key [] := fun key => by rw [getVals, getVals, hs]
    have g2 : ∀ key, getVals q.ints key [] = getVals p.ints key [] := fun key => by rw [getVals, getVals, hi]
    unfold cpmInit
    rw [g1, g2]
  have hstep : PidHandler.initStep q = PidHandler.initStep p := by
    funext h e
    simp only [PidHandler.initStep, getVals, hs]
  unfold PidHandler.new
  rw [hinit, hstep]
  split
  · rfl
  · split
    · rfl
    · split <;> rfl

/-- **C55** fails for two handlers on the same collection: both give their first algorithm the id 0, and what the one destroyed first has stored is lost:
a new handler does not know its algorithm. -/
theorem C55_fails_for_two_handlers (n m : Str) (hne : n ≠ m) (ps qs : List Str) :
    ∃ h1 h2 p' p'' h, PidHandler.new (str "Cluster") {} = (.ok {}, {}) ∧
      PidHandler.addAlgorithm {} n ps = .ok (0, h1) ∧ PidHandler.addAlgorithm {} m qs = .ok (0, h2) ∧
      h1.destroy {} = .ok p' ∧ h2.destroy p' = .ok p'' ∧ PidHandler.new (str "Cluster") p'' = (.ok h, p'') ∧
      h.getAlgorithmID m = .ok 0 ∧ h.getAlgorithmID n = .error .lcException := by
  have H0 : PidHolds {} [] := by
    refine ⟨List.nodup_nil, List.Pairwise.nil, List.Pairwise.nil, ?_, ?_, ?_, rfl, List.Perm.refl _⟩ <;> intro a b <;> simp [omFind]
  obtain ⟨h1, e1, H1⟩ := (H0.add n ps).2 (by simp) (by simp)
  obtain ⟨h2, e2, H2⟩ := (H0.add m qs).2 (by simp) (by simp)
  obtain ⟨p', d1, d2, _⟩ := H1.destroy (by simp) {} rfl
  obtain ⟨p'', d3, d4, _⟩ := H2.destroy (by simp) p' d2.writable
  obtain ⟨h, e3, H3⟩ := d4.load (str "Cluster") (.inr rfl)
  refine ⟨h1, h2, p', p'', h, by decide +kernel, e1, e2, d1, d3, e3, H3.knows.id 0 m qs rfl, H3.knows.otherNames n ?_⟩
  simpa using hne

/-- A constructor that fails because of the type of the collection leaves two empty parameters in it. -/
theorem C55_refused_type : PidHandler.new (str "Track") {} = (.error .lcException, { strs := [(str "PIDAlgorithmTypeName", [])], ints := [(str "PIDAlgorithmTypeID", [])] }) := by
  decide +kernel

/-- **C55**, use of the ids: after `setParticleID` the particle identification of the algorithm is found with the values that were set, those of other algorithms
are as before, and there is a second one for the same algorithm only if there was one before. It is refused exactly if the algorithm is unknown or the number of
parameters is not that of the algorithm. -/
theorem C55_set_particle_id (h : PidHandler) (A : Algorithms) (H : Knows h A) (l : List PidObject) (type pdg lh : W32) (k : Nat) (n : Str) (ps : List Str) (hk : A[k]? = some (n, ps))
    (params : List W32) :
    (params.length ≠ ps.length → h.setParticleID l type pdg lh k params = .error .lcException) ∧
    (params.length = ps.length → ∃ l', h.setParticleID l type pdg lh k params = .ok l' ∧
      h.getParticleID l' k = .ok (some ⟨type, pdg, lh, k, params⟩) ∧ (∀ j : Int, j ≠ k → l'.filter (·.algorithm == j) = l.filter (·.algorithm == j)) ∧
      (l'.filter (·.algorithm == (k : Int))).length = max 1 (l.filter (·.algorithm == (k : Int))).length) := by
  have hfind : omFind intLt (k : Int) h.pNames = some ps := by
    have := H.params k n ps hk
    unfold PidHandler.getParameterNames at this
    cases ho : omFind intLt (k : Int) h.pNames with
    | none => rw [ho] at this; cases this
    | some x => rw [ho] at this; injection this with this; rw [this]
  constructor
  · intro hne
    simp only [PidHandler.setParticleID, hfind]
    rw [if_pos hne]
  · intro heq
    simp only [PidHandler.setParticleID, hfind, PidHandler.getParticleID]
    rw [if_neg (fun hne => hne heq)]
    cases hi : l.findIdx? (·.algorithm == (k : Int)) with
    | none =>
      have hno := List.findIdx?_eq_none_iff.1 hi
      refine ⟨_, rfl, ?_, ?_, ?_⟩
      · rw [List.find?_append, List.find?_eq_none.2 (by intro x hx; rw [hno x hx]; simp)]
        simp
      · intro j hj
        rw [List.filter_append]
        have : ([⟨type, pdg, lh, (k : Int), params⟩] : List PidObject).filter (·.algorithm == j) = [] := by
          rw [List.filter_cons_of_neg (by simpa using Ne.symm hj)]; rfl
        rw [this, List.append_nil]
      · rw [List.filter_append, List.length_append, List.filter_eq_nil_iff.2 (by intro x hx; rw [hno x hx]; simp)]
        simp
    | some i =>
      obtain ⟨hlt, hp, hbefore⟩ := List.findIdx?_eq_some_iff_getElem.1 hi
      obtain ⟨a, x, b, hl, hlen⟩ : ∃ a x b, l = a ++ x :: b ∧ a.length = i :=
        ⟨l.take i, l[i], l.drop (i + 1), by rw [List.getElem_cons_drop, List.take_append_drop], by rw [List.length_take]; omega⟩
      have hx : x.algorithm = k := by
        have : l[i] = x := by simp [hl, hlen.symm]
        rw [this] at hp; simpa using hp
      have ha : ∀ y ∈ a, (y.algorithm == (k : Int)) = false := by
        intro y hy
        obtain ⟨j, hj, rfl⟩ := List.getElem_of_mem hy
        have := hbefore j (by omega)
        have e : l[j]'(by omega) = a[j] := by
          simp only [hl]
          rw [List.getElem_append_left]
        rw [e] at this
        simpa using this
      have hset : l.set i ⟨type, pdg, lh, (k : Int), params⟩ = a ++ ⟨type, pdg, lh, (k : Int), params⟩ :: b := by
        rw [hl, List.set_append_right _ _ (by omega), hlen, Nat.sub_self]; rfl
      refine ⟨_, rfl, ?_, ?_, ?_⟩
      · rw [hset, List.find?_append, List.find?_eq_none.2 (by intro y hy; rw [ha y hy]; simp)]
        simp
      · intro j hj
        rw [hset, hl, List.filter_append, List.filter_append, List.filter_cons_of_neg (by simpa using Ne.symm hj), List.filter_cons_of_neg (by rw [hx]; simpa using Ne.symm hj)]
      · rw [hset, hl, List.filter_append, List.filter_append, List.filter_cons_of_pos (by simp), List.filter_cons_of_pos (by rw [hx]; simp)]
        simp only [List.length_append, List.length_cons]; omega

/-- **C55**, the place of a parameter: `getParameterIndex` gives the first place of the name in the list of the parameter names of the algorithm, -1 if it is not there, and
throws for ids without algorithm. -/
theorem C55_parameter_index (h : PidHandler) (A : Algorithms) (H : Knows h A) (name : Str) :
    (∀ (k : Nat) n ps, A[k]? = some (n, ps) →
      (name ∉ ps → h.getParameterIndex k name = .ok (-1)) ∧
      ∀ i : Nat, ps[i]? = some name → (∀ j, j < i → ps[j]? ≠ some name) → h.getParameterIndex k name = .ok i) ∧
    ∀ i : Int, (i < 0 ∨ (A.length : Int) ≤ i) → h.getParameterIndex i name = .error .lcException := by
  constructor
  · intro k n ps hk
    have hfind : omFind intLt (k : Int) h.pNames = some ps := by
      have := H.params k n ps hk
      unfold PidHandler.getParameterNames at this
      cases ho : omFind intLt (k : Int) h.pNames with
      | none => rw [ho] at this; cases this
      | some x => rw [ho] at this; injection this with this; rw [this]
    constructor
    · intro hn
      have : ps.findIdx? (· == name) = none := by
        rw [List.findIdx?_eq_none_iff]
        intro x hx
        simp only [beq_eq_false_iff_ne]
        rintro rfl
        exact hn hx
      simp only [PidHandler.getParameterIndex, hfind, this]
    · intro i hi hj
      have hlt : i < ps.length := (List.getElem?_eq_some_iff.1 hi).1
      have : ps.findIdx? (· == name) = some i := by
        rw [List.findIdx?_eq_some_iff_getElem]
        refine ⟨hlt, ?_, ?_⟩
        · have := (List.getElem?_eq_some_iff.1 hi).2
          simp [this]
        · intro j hji
          have := hj j hji
          rw [List.getElem?_eq_getElem (by omega)] at this
          simpa using this
      simp only [PidHandler.getParameterIndex, hfind, this]
  · intro i hi
    have := (H.otherIds i hi).2
    unfold PidHandler.getParameterNames at this
    cases ho : omFind intLt i h.pNames with
    | none => simp only [PidHandler.getParameterIndex, ho]
    | some x => rw [ho] at this; cases this

/-- **C55**, the particle identifications of an algorithm: `getParticleIDs` gives exactly those of the algorithm, in their order; `getParticleID` gives the first of them, or the dummy object if there are none;
`setParticleIDUsed` makes the first of them the used one and throws if there are none. All of them throw for ids without algorithm. -/
theorem C55_particle_ids (h : PidHandler) (A : Algorithms) (H : Knows h A) (l : List PidObject) :
    (∀ (k : Nat), k < A.length → ∃ found, h.getParticleIDs l k = .ok found ∧ found.Sublist l ∧ (∀ x, l.count x = found.count x ∨ x.algorithm ≠ k) ∧ (∀ x ∈ found, x.algorithm = k) ∧
      h.getParticleID l k = .ok found.head? ∧
      (found = [] → h.setParticleIDUsed l k = .error .lcException) ∧
      ∀ x, found.head? = some x → ∃ i, h.setParticleIDUsed l k = .ok i ∧ l[i]? = some x ∧ ∀ (j : Nat) y, j < i → l[j]? = some y → y.algorithm ≠ k) ∧
    ∀ i : Int, (i < 0 ∨ (A.length : Int) ≤ i) →
      h.getParticleIDs l i = .error .lcException ∧ h.getParticleID l i = .error .lcException ∧ h.setParticleIDUsed l i = .error .lcException := by
  constructor
  · intro k hk
    obtain ⟨⟨n, ps⟩, e⟩ : ∃ x, A[k] = x := ⟨_, rfl⟩
    have hfind : omFind intLt (k : Int) h.pNames = some ps := by
      have := H.params k n ps (by rw [List.getElem?_eq_getElem hk, e])
      unfold PidHandler.getParameterNames at this
      cases ho : omFind intLt (k : Int) h.pNames with
      | none => rw [ho] at this; cases this
      | some x => rw [ho] at this; injection this with this; rw [this]
    refine ⟨l.filter (·.algorithm == (k : Int)), by simp only [PidHandler.getParticleIDs, hfind], List.filter_sublist, ?_, ?_, ?_, ?_, ?_⟩
    · intro x
      by_cases hx : x.algorithm = k
      · left
        rw [List.count_filter (by simpa using hx)]
      · right; exact hx
    · intro x hx
      simpa using (List.mem_filter.1 hx).2
    · simp only [PidHandler.getParticleID, hfind, List.head?_filter]
    · intro hnil
      have : l.findIdx? (·.algorithm == (k : Int)) = none := by
        rw [List.findIdx?_eq_none_iff]
        intro x hx
        have := List.filter_eq_nil_iff.1 hnil x hx
        simpa using this
      simp only [PidHandler.setParticleIDUsed, hfind, this]
    · intro x hx
      rw [List.head?_filter] at hx
      cases hi : l.findIdx? (·.algorithm == (k : Int)) with
      | none =>
        have := List.findIdx?_eq_none_iff.1 hi x (List.mem_of_find?_eq_some hx)
        have h2 := List.find?_some hx
        rw [this] at h2; cases h2
      | some i =>
        obtain ⟨hlt, hp, hbefore⟩ := List.findIdx?_eq_some_iff_getElem.1 hi
        refine ⟨i, by simp only [PidHandler.setParticleIDUsed, hfind, hi], ?_, ?_⟩
        · have := List.find?_eq_some_iff_getElem.1 hx
          obtain ⟨hpx, j, hj, hjx, hjb⟩ := this
          have hij : i = j := by
            rcases Nat.lt_trichotomy i j with hlt' | heq | hgt
            · have := hjb i hlt'
              rw [hp] at this; cases this
            · exact heq
            · have := hbefore j hgt
              rw [hjx] at this
              exact absurd hpx this
          subst hij
          rw [List.getElem?_eq_getElem hlt, hjx]
        · intro j y hji hy
          have := hbefore j hji
          rw [List.getElem?_eq_getElem (by omega)] at hy
          rw [Option.some.inj hy] at this
          simpa using this
  · intro i hi
    have := (H.otherIds i hi).2
    unfold PidHandler.getParameterNames at this
    cases ho : omFind intLt i h.pNames with
    | none => simp only [PidHandler.getParticleIDs, PidHandler.getParticleID, PidHandler.setParticleIDUsed, ho, and_self]
    | some x => rw [ho] at this; cases this

end Props
