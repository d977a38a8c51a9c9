import Verif.Lcio.ObjectLemmas
/-
Reading collections and events that were written.
-/
namespace Lcio
open Sio Spec

/-! ### Objects -/

/-- The state of the handler fits the object. -/
def CtxOk (c : Ctx) : Obj → Prop
  | .vertex o => small c.algs.length ∧ o.algorithmType ∈ c.algs
  | .generic o => c.fixed = c.flag.getLsbD 31 ∧ (c.fixed = true →
    c.nInt = BitVec.ofNat 32 o.ints.length ∧ c.nFloat = BitVec.ofNat 32 o.floats.length ∧ c.nDouble = BitVec.ofNat 32 o.doubles.length)
  | _ => True

/-- What reading an object registers. -/
def objRegs (flag : W32) (k : Kind) (addr self n : Nat) (o : Obj) : List (Nat × Nat) :=
  pidRegs n (pidsOf o) ++ if canPointAt flag k then [(addr, self)] else []

theorem objLaw (c : Ctx) (φ : Nat → Nat) (is : List Item) (n : Nat) (rg : List (Nat × Nat)) (addr self : Nat) (k : Kind) (o : Obj)
    (h : ObjOk k o) (hc : CtxOk c o) :
    (readObj c blockVersion self k).runF φ ⟨flat (writeObj c addr k o) ++ is, n, rg⟩ =
    some (keptObj c.std c.flag φ (List.range' n (pidsOf o).length) o, ⟨is, n + (pidsOf o).length, rg ++ objRegs c.flag k addr self n o⟩) := by
  cases k <;> cases o <;> simp only [ObjOk] at h <;> simp only [readObj, writeObj, runF_map]
  case mcParticle => rw [MCParticle.law _ _ _ _ _ _ _ _ h]; rfl
  case simCalHit => rw [SimCalHit.law _ _ _ _ _ _ _ _ h]; rfl
  case rawCalHit => rw [RawCalHit.law]; rfl
  case calHit => rw [CalHit.law _ _ _ _ _ _ _ _ h]; rfl
  case simTrackerHit => rw [SimTrackerHit.law _ _ _ _ _ _ _ _ h]; rfl
  case tpcHit => rw [TPCHit.law _ _ _ _ _ _ _ _ h]; rfl
  case trackerRawData => rw [TrackerRawData.law _ _ _ _ _ _ _ _ h]; rfl
  case trackerData => rw [TrackerData.law _ _ _ _ _ _ _ _ h]; rfl
  case trackerPulse => rw [TrackerPulse.law _ _ _ _ _ _ _ _ h]; rfl
  case trackerHit => rw [TrackerHit.law _ _ _ _ _ _ _ _ h]; rfl
  case trackerHitPlane => rw [TrackerHitPlane.law _ _ _ _ _ _ _ _ h]; rfl
  case trackerHitZCylinder => rw [TrackerHitZCylinder.law _ _ _ _ _ _ _ _ h]; rfl
  case track => rw [Track.law _ _ _ _ _ _ _ _ h]; rfl
  case cluster => rw [Cluster.law _ _ _ _ _ _ _ _ h]; rfl
  case recoParticle => rw [RecoParticle.law _ _ _ _ _ _ _ _ h]; rfl
  case relation => rw [Relation.law]; simp [objRegs, pidsOf, pidRegs, canPointAt, keptObj]
  case vertex => rw [Vertex.law _ _ _ _ _ _ _ _ h hc.1 hc.2]; rfl
  case strVec => rw [vecStrLaw _ _ _ _ _ _ _ h.1 h.2]; rfl
  case floatVec => rw [vec32Law _ _ _ _ _ _ _ h]; rfl
  case intVec => rw [vec32Law _ _ _ _ _ _ _ h]; rfl
  case generic => rw [Generic.law _ _ _ _ _ _ _ _ h hc.2]; simp only [hc.1]; rfl

/-- Setting pointers in what was loaded. -/
theorem mapPtr_kept (std : Std Pid) (flag : W32) (f g : Nat → Nat) (ids : List Nat) (o : Obj) :
    (keptObj std flag f ids o).mapPtr g = keptObj std flag (fun a => g (f a)) ids o := by
  cases o <;> simp only [keptObj, Obj.mapPtr]
  case mcParticle o => simp [MCParticle.mapPtr, keptMCParticle]
  case simCalHit o => simp [SimCalHit.mapPtr, keptSimCalHit, keptSimCont, SimCont.mapPtr]
  case calHit o => simp [CalHit.mapPtr, keptCalHit]
  case simTrackerHit o => simp [SimTrackerHit.mapPtr, keptSimTrackerHit]
  case trackerPulse o => simp [TrackerPulse.mapPtr, keptTrackerPulse]
  case trackerHit o => simp [TrackerHit.mapPtr, keptTrackerHit]
  case trackerHitPlane o => simp [TrackerHitPlane.mapPtr, keptTrackerHitPlane]
  case trackerHitZCylinder o => simp [TrackerHitZCylinder.mapPtr, keptTrackerHitZCylinder]
  case track o => simp only [Track.mapPtr, keptTrack, ifBit]; split <;> simp
  case cluster o => simp only [Cluster.mapPtr, keptCluster, ifBit]; split <;> simp
  case recoParticle o => simp [RecoParticle.mapPtr, keptRecoParticle]
  case relation o => simp [Relation.mapPtr, keptRelation]
  case vertex o => simp [Vertex.mapPtr, keptVertex]

/-! ### Elements -/

/-- The number of objects made for an element. -/
def elemNews (e : Elem) : Nat := match e.obj with
  | some o => 1 + (pidsOf o).length
  | none => 1

/-- The element loaded when `n` is the next identity. -/
def loadElem (std : Std Pid) (flag : W32) (φ : Nat → Nat) (n : Nat) (e : Elem) : Elem :=
  ⟨n, e.obj.map fun o => keptObj std flag φ (List.range' (n + 1) (pidsOf o).length) o⟩
/-- What is registered for it. -/
def elemRegs (flag : W32) (k : Kind) (n : Nat) (e : Elem) : List (Nat × Nat) := match e.obj with
  | some o => objRegs flag k e.addr n (n + 1) o
  | none => []

/-- The elements of a collection that is not a subset. -/
def loadElems (std : Std Pid) (flag : W32) (φ : Nat → Nat) : Nat → List Elem → List Elem
  | _, [] => []
  | n, e :: es => loadElem std flag φ n e :: loadElems std flag φ (n + elemNews e) es
/-- What is registered for them. -/
def elemsRegs (flag : W32) (k : Kind) : Nat → List Elem → List (Nat × Nat)
  | _, [] => []
  | n, e :: es => elemRegs flag k n e ++ elemsRegs flag k (n + elemNews e) es
/-- How many objects are made. -/
def elemsNews : List Elem → Nat
  | [] => 0
  | e :: es => elemNews e + elemsNews es

theorem elemLaw (k : Kind) (c : Ctx) (φ : Nat → Nat) (is : List Item) (n : Nat) (rg : List (Nat × Nat)) (e : Elem) (o : Obj) (he : e.obj = some o)
    (h : ObjOk k o) (hc : CtxOk c o) :
    (readElem k c blockVersion).runF φ ⟨flat (e.write k c) ++ is, n, rg⟩ =
    some (loadElem c.std c.flag φ n e, ⟨is, n + elemNews e, rg ++ elemRegs c.flag k n e⟩) := by
  unfold readElem Elem.write
  simp only [he, runF_bind, runF_rNew, Option.bind_some, runF_asFailure, objLaw c φ _ _ _ _ _ k o h hc, runF_pure]
  simp only [loadElem, elemNews, elemRegs, he, Option.map_some, Nat.add_assoc]

theorem elemsLaw (k : Kind) (c : Ctx) (φ : Nat → Nat) (is : List Item) (n : Nat) (rg : List (Nat × Nat)) (es : List Elem)
    (h : ∀ e ∈ es, ∃ o, e.obj = some o ∧ ObjOk k o ∧ CtxOk c o) :
    (rRepeat es.length (readElem k c blockVersion)).runF φ ⟨(es.flatMap fun e => flat (e.write k c)) ++ is, n, rg⟩ =
    some (loadElems c.std c.flag φ n es, ⟨is, n + elemsNews es, rg ++ elemsRegs c.flag k n es⟩) := by
  induction es generalizing n rg with
  | nil => simp [rRepeat, loadElems, elemsRegs, elemsNews, runF_ret]
  | cons e es ih =>
    obtain ⟨o, he, ho, hc⟩ := h e (by simp)
    simp only [List.length_cons, rRepeat, List.flatMap_cons, List.append_assoc, runF_bind, elemLaw k c φ _ _ _ e o he ho hc, Option.bind_some,
      ih _ _ (fun x hx => h x (by simp [hx])), runF_pure]
    simp only [loadElems, elemsRegs, elemsNews, Nat.add_assoc]

theorem mapPtr_loadElems (std : Std Pid) (flag : W32) (f g : Nat → Nat) (n : Nat) (es : List Elem) (h : ∀ e ∈ es, e.obj ≠ none) :
    (loadElems std flag f n es).map (·.mapPtr g) = loadElems std flag (fun a => g (f a)) n es := by
  induction es generalizing n with
  | nil => rfl
  | cons e es ih =>
    simp only [loadElems, List.map_cons, ih _ (fun x hx => h x (by simp [hx]))]
    congr 1
    obtain ⟨o, ho⟩ := Option.ne_none_iff_exists'.1 (h e (by simp))
    simp only [loadElem, ho, Option.map_some, Elem.mapPtr, mapPtr_kept]

/-! ### Preparing -/

theorem setInsert_mem (s x : Str) (l : List Str) : x ∈ setInsert s l ↔ x = s ∨ x ∈ l := by
  unfold setInsert
  induction l with
  | nil => simp [omAssign]
  | cons a l ih =>
    simp only [List.map_cons, omAssign]
    by_cases h1 : strLt s a = true
    · simp [h1, List.mem_map]
    · by_cases h2 : strLt a s = true
      · simp only [h1, h2, if_true, if_false, Bool.false_eq_true, List.map_cons, List.mem_cons, ih]
        constructor
        · rintro (h | h | h) <;> simp [h]
        · rintro (h | h | h) <;> simp [h]
      · have : s = a := strLt_total s a (by simpa using h1) (by simpa using h2)
        subst this
        simp [h1, List.mem_map]

theorem algTypes_ok (es : List Elem) (set : List Str) (h : ∀ e ∈ es, ∃ o, e.obj = some (.vertex o)) :
    ∃ algs, algTypes es set = .ok algs ∧ (∀ s ∈ set, s ∈ algs) ∧ ∀ e ∈ es, ∀ o, e.obj = some (.vertex o) → o.algorithmType ∈ algs := by
  induction es generalizing set with
  | nil => exact ⟨set, rfl, fun _ h => h, fun e h => by cases h⟩
  | cons e es ih =>
    obtain ⟨v, hv⟩ := h e (by simp)
    obtain ⟨algs, h1, h2, h3⟩ := ih (setInsert v.algorithmType set) (fun x hx => h x (by simp [hx]))
    refine ⟨algs, by simp only [algTypes, hv, h1], fun s hs => h2 s ((setInsert_mem _ _ _).2 (.inr hs)), ?_⟩
    intro x hx o ho
    rcases List.mem_cons.1 hx with rfl | hx
    · rw [hv] at ho; cases ho
      exact h2 _ ((setInsert_mem _ _ _).2 (.inl rfl))
    · exact h3 x hx o ho

theorem allFixed_ok (es : List Elem) (h : allGeneric es) :
    ∃ b, allFixed es = .ok b ∧ (b = true ↔ ∀ e ∈ es, ∀ o, e.obj = some (.generic o) → o.fixed = true) := by
  induction es with
  | nil => exact ⟨true, rfl, fun _ e h => (by cases h), fun _ => rfl⟩
  | cons e es ih =>
    obtain ⟨g, hg⟩ := h e (by simp)
    obtain ⟨b, h1, h2⟩ := ih (fun x hx => h x (by simp [hx]))
    cases hf : g.fixed
    · refine ⟨false, by simp [allFixed, hg, hf], (fun h => by cases h), fun h => ?_⟩
      rw [h e (by simp) g hg] at hf; cases hf
    · refine ⟨b, by simp [allFixed, hg, hf, h1], fun hb e' he' o ho => ?_, fun h => h2.2 fun e' he' => h e' (by simp [he'])⟩
      rcases List.mem_cons.1 he' with rfl | he'
      · rw [hg] at ho; cases ho; exact hf
      · exact h2.1 hb e' he' o ho

theorem omFind_assignVal {α : Type} (m : VecMap α) (key key' : Str) (v : α) :
    omFind strLt key' (assignVal m key v) = if key' = key then some [v] else omFind strLt key' m := by
  unfold assignVal
  simp only [omFind_assign strWeak, show eqv strLt key key = true from (eqv_str key key).2 rfl, if_true, Option.getD_some, List.nil_append]
  by_cases h : key' = key
  · subst h; simp [show eqv strLt key' key' = true from (eqv_str key' key').2 rfl]
  · have : eqv strLt key key' = false := by
      rw [Bool.eq_false_iff]; intro h'; exact h ((eqv_str _ _).1 h').symm
    simp [h, this]

theorem defaultParam_ok (p : Params) (key : Str) (g : Option Generic) (val : Generic → Str) (hr : p.readOnly = false) (h : omFind strLt key p.strs ≠ some []) :
    ∃ p', defaultParam p key g val = .ok p' ∧ p'.readOnly = false ∧ p'.ints = p.ints ∧ p'.floats = p.floats ∧
      ∀ key', key' ≠ key → omFind strLt key' p'.strs = omFind strLt key' p.strs := by
  have hv : ∃ v, getVal [] p.strs key = .ok v := by
    unfold getVal
    match hh : omFind strLt key p.strs with
    | none => exact ⟨_, rfl⟩
    | some [] => exact absurd hh h
    | some (v :: _) => exact ⟨v, rfl⟩
  obtain ⟨v, hv⟩ := hv
  unfold defaultParam
  rw [hv]
  cases g with
  | none => exact ⟨p, rfl, hr, rfl, rfl, fun _ _ => rfl⟩
  | some o =>
    simp only [bind, Except.bind]
    split
    · refine ⟨{ p with strs := assignVal p.strs key (val o) }, ?_, hr, rfl, rfl, ?_⟩
      · simp [Params.setStr, Params.checked, hr]
      · intro key' hk
        simp only [omFind_assignVal, if_neg hk]
    · exact ⟨p, rfl, hr, rfl, rfl, fun _ _ => rfl⟩

theorem firstGeneric_some (es : List Elem) (o : Generic) (h : firstGeneric es = some o) : ∃ e ∈ es, e.obj = some (.generic o) := by
  unfold firstGeneric at h
  match es, h with
  | ⟨a, some (.generic x)⟩ :: es, h =>
    simp only [List.head?_cons, Option.some.injEq] at h
    subst h
    exact ⟨_, List.mem_cons_self, rfl⟩

theorem firstGeneric_none (es : List Elem) (hg : allGeneric es) (h : firstGeneric es = none) : es = [] := by
  match es with
  | [] => rfl
  | e :: es =>
    obtain ⟨o, ho⟩ := hg e (by simp)
    obtain ⟨a, ob⟩ := e
    simp only at ho
    subst ho
    simp [firstGeneric] at h

/-- The state in which a handler is after it has prepared a collection. -/
structure Prepared (std : Std Pid) (k : Kind) (c : Collection) (ctx : Ctx) (c' : Collection) : Prop where
  eq : c.prepare std k = .ok (ctx, c')
  std : ctx.std = std
  flag : ctx.flag = c'.flag
  bits : ∀ i, i ≠ 31 → c'.flag.getLsbD i = c.flag.getLsbD i
  type : c'.type = c.type
  elems : c'.elems = c.elems
  access : c'.params.readOnly = false
  algs : k = .vertex → getVals c'.params.strs vertexKey [] = ctx.algs
  noAlgs : k ≠ .vertex → ctx.algs = []
  algsOk : k = .vertex → omFind strLt vertexKey c'.params.strs = some ctx.algs ∧ ∀ e ∈ c.elems, ∀ o, e.obj = some (.vertex o) → o.algorithmType ∈ ctx.algs
  fixed : ctx.fixed = (k == .generic && c'.flag.getLsbD 31)
  sizes : k = .generic → ctx.fixed = true → ∀ e ∈ c.elems, ∀ o, e.obj = some (.generic o) →
    ctx.nInt = BitVec.ofNat 32 o.ints.length ∧ ctx.nFloat = BitVec.ofNat 32 o.floats.length ∧ ctx.nDouble = BitVec.ofNat 32 o.doubles.length

theorem setBit31 (f : W32) (i : Nat) (h : i ≠ 31) : (f ||| 1#32 <<< 31).getLsbD i = f.getLsbD i := by
  rw [BitVec.getLsbD_or, BitVec.getLsbD_shiftLeft]
  by_cases h1 : i < 31
  · simp [h1]
  · have : ¬ i < 32 := by omega
    simp [this]

theorem setBit31' (f : W32) : (f ||| 1#32 <<< 31).getLsbD 31 = true := by
  rw [BitVec.getLsbD_or]
  rw [show (1#32 <<< 31).getLsbD 31 = true from by decide]
  simp

/-- What is needed for preparing a collection. -/
theorem prepare_ok (std : Std Pid) (k : Kind) (c : Collection) (ha : c.params.readOnly = false)
    (hv : k = .vertex → ∀ e ∈ c.elems, ∃ o, e.obj = some (.vertex o)) (hg : k = .generic → GenericColOk c) :
    ∃ ctx c', Prepared std k c ctx c' := by
  by_cases h1 : k = .vertex
  · subst h1
    obtain ⟨algs, a1, _, a3⟩ := algTypes_ok c.elems [] (hv rfl)
    have hf : omFind strLt vertexKey (assignVals c.params.strs vertexKey algs) = some algs := by
      unfold assignVals
      rw [omFind_assign strWeak, if_pos ((eqv_str _ _).2 rfl)]
    refine ⟨{ std, flag := c.flag, algs }, { c with params := { c.params with strs := assignVals c.params.strs vertexKey algs } }, ?_⟩
    refine ⟨?_, rfl, rfl, fun _ _ => rfl, rfl, rfl, ha, fun _ => ?_, fun h => absurd rfl h, fun _ => ⟨hf, fun e he o ho => a3 e he o ho⟩, ?_, fun h => by cases h⟩
    · simp [Collection.prepare, a1, Params.setStrs, Params.checked, ha, bind, Except.bind, pure, Except.pure]
    · simp only [getVals, hf, List.nil_append]
    · simp
  · by_cases h2 : k = .generic
    · subst h2
      have hg := hg rfl
      obtain ⟨b, b1, b2⟩ := allFixed_ok c.elems hg.objects
      obtain ⟨p1, q1, q2, _, _, q3⟩ := defaultParam_ok c.params (str "TypeName") (firstGeneric c.elems) (·.typeName) ha hg.typeName
      obtain ⟨p2, r1, r2, _, _⟩ := defaultParam_ok p1 (str "DataDescription") (firstGeneric c.elems) (·.descr) q2
        (by rw [q3 _ (by decide)]; exact hg.descr)
      refine ⟨{ std, flag := if b then c.flag ||| 1#32 <<< 31 else c.flag, fixed := b,
                nInt := BitVec.ofNat 32 (((firstGeneric c.elems).map (·.ints.length)).getD 0),
                nFloat := BitVec.ofNat 32 (((firstGeneric c.elems).map (·.floats.length)).getD 0),
                nDouble := BitVec.ofNat 32 (((firstGeneric c.elems).map (·.doubles.length)).getD 0) },
              { c with params := if b then p2 else p1, flag := if b then c.flag ||| 1#32 <<< 31 else c.flag }, ?_⟩
      · constructor
        case eq =>
          simp only [Collection.prepare, b1, q1, bind, Except.bind]
          cases b
          · simp only [Bool.false_eq_true, if_false, pure, Except.pure]
          · simp only [if_true, r1, pure, Except.pure]
        case std => rfl
        case flag => rfl
        case bits =>
          intro i hi
          simp only
          split
          · exact setBit31 _ _ hi
          · rfl
        case type => rfl
        case elems => rfl
        case access => cases b <;> assumption
        case algs => intro h; cases h
        case noAlgs => intro _; rfl
        case algsOk => intro h; cases h
        case fixed =>
          cases hb : b
          · rcases hg.fixed with h | h
            · rw [b2.2 h] at hb; cases hb
            · simp only [Bool.false_eq_true, if_false, h, Bool.and_false]
          · simp only [if_true, setBit31']; rfl
        case sizes =>
          intro _ hb e he o ho
          simp only at hb
          obtain ⟨x, hx⟩ : ∃ x, firstGeneric c.elems = some x := by
            match hh : firstGeneric c.elems with
            | some x => exact ⟨x, rfl⟩
            | none => rw [firstGeneric_none _ hg.objects hh] at he; cases he
          obtain ⟨e', he', ho'⟩ := firstGeneric_some _ _ hx
          obtain ⟨s1, s2, s3⟩ := hg.sizes (b2.1 hb) e' he' e he x o ho' ho
          simp only [hx, Option.map_some, Option.getD_some, s1, s2, s3, and_self]
    · refine ⟨{ std, flag := c.flag }, c, ?_⟩
      refine ⟨?_, rfl, rfl, fun _ _ => rfl, rfl, rfl, ha, fun h => absurd h h1, fun _ => rfl, fun h => absurd h h1, ?_, fun h => absurd h h2⟩
      · cases k <;> first | rfl | exact absurd rfl h1 | exact absurd rfl h2
      · cases k <;> first | rfl | exact absurd rfl h1 | exact absurd rfl h2

/-! ### Collections -/

theorem written_eq (std : Std Pid) (k : Kind) (c : Collection) (ctx : Ctx) (c' : Collection) (hk : kindOf c.type = some k)
    (h : Prepared std k c ctx c') : c.written std = c' := by
  unfold Collection.written
  rw [hk]
  simp only [h.eq]

/-- The collection loaded when `n` is the next identity. -/
def loadCol (std : Std Pid) (φ : Nat → Nat) (n : Nat) (c : Collection) : Collection :=
  { type := c.type, flag := (c.written std).flag, params := (c.written std).params,
    elems := if c.flag.getLsbD 18 then c.elems.map (fun e => ⟨φ e.addr, none⟩) else loadElems std (c.written std).flag φ n c.elems }
/-- How many objects are made. -/
def colNews (c : Collection) : Nat := if c.flag.getLsbD 18 then 0 else elemsNews c.elems
/-- What is registered. -/
def colRegs (k : Kind) (n : Nat) (c : Collection) : List (Nat × Nat) := if c.flag.getLsbD 18 then [] else elemsRegs c.flag k n c.elems

theorem writeObj_sizes (ctx : Ctx) (addr : Nat) (k : Kind) (o : Obj) :
    writeObj { ctx with nInt := if ctx.fixed then ctx.nInt else 0, nFloat := if ctx.fixed then ctx.nFloat else 0,
                        nDouble := if ctx.fixed then ctx.nDouble else 0 } addr k o = writeObj ctx addr k o := by
  obtain ⟨std, flag, algs, fixed, nInt, nFloat, nDouble⟩ := ctx
  cases fixed <;> cases k <;> cases o <;> rfl

theorem canPointAt_congr (f g : W32) (k : Kind) (h : ∀ i, i ≠ 31 → f.getLsbD i = g.getLsbD i) : canPointAt f k = canPointAt g k := by
  cases k <;> simp only [canPointAt, h 28 (by decide), h 30 (by decide)]

theorem elemsRegs_congr (f g : W32) (k : Kind) (n : Nat) (es : List Elem) (h : ∀ i, i ≠ 31 → f.getLsbD i = g.getLsbD i) :
    elemsRegs f k n es = elemsRegs g k n es := by
  induction es generalizing n with
  | nil => rfl
  | cons e es ih => simp only [elemsRegs, ih, elemRegs, objRegs, canPointAt_congr f g k h]

theorem headLaw (std : Std Pid) (k : Kind) (c : Collection) (ctx : Ctx) (c' : Collection) (h : Prepared std k c ctx c') (hp : ParamsOk c'.params)
    (φ : Nat → Nat) (is : List Item) (n : Nat) (rg : List (Nat × Nat)) :
    (readHead std k blockVersion).runF φ ⟨flat (writeHead k ctx c') ++ is, n, rg⟩ =
    some (({ ctx with nInt := if ctx.fixed then ctx.nInt else 0, nFloat := if ctx.fixed then ctx.nFloat else 0,
                      nDouble := if ctx.fixed then ctx.nDouble else 0 }, c'.params), ⟨is, n, rg⟩) := by
  have hf : (k == .generic && ctx.fixed) = ctx.fixed := by
    rw [h.fixed]; cases (k == Kind.generic) <;> simp
  have ha : (if (k == Kind.vertex) = true then getVals c'.params.strs vertexKey [] else []) = ctx.algs := by
    by_cases hk : k = .vertex
    · rw [if_pos (by simpa using hk), h.algs hk]
    · rw [if_neg (by simpa using hk), h.noAlgs hk]
  have hr : ({ c'.params with readOnly := false } : Params) = c'.params := by rw [← h.access]
  rules [readHead, writeHead, hf, runF_params _ _ _ _ _ hp, hr, ha, ← h.fixed]
  rw [← h.flag, ← h.std]

theorem collectionLaw (std : Std Pid) (k : Kind) (c : Collection) (h : CollectionOk std k c) (φ : Nat → Nat) (is : List Item) (n : Nat) (rg : List (Nat × Nat)) :
    (Collection.read std c.type blockVersion).runF φ ⟨flat (c.write std) ++ is, n, rg⟩ =
    some (loadCol std φ n c, ⟨is, n + colNews c, rg ++ colRegs k n c⟩) := by
  obtain ⟨ctx, c', hp⟩ := prepare_ok std k c h.access h.vertices h.generic
  have hw := written_eq std k c ctx c' h.kind hp
  have hpo : ParamsOk c'.params := by rw [← hw]; exact h.params
  have hb : ctx.bit 18 = c.flag.getLsbD 18 := by
    unfold Ctx.bit; rw [hp.flag]; exact hp.bits 18 (by decide)
  unfold Collection.read Collection.write
  rw [h.kind]
  simp only [hp.eq, runF_bind, flat_append, List.append_assoc, headLaw std k c ctx c' hp hpo, Option.bind_some, runF_pure]
  rw [hp.elems, wFor_eq _ _ h.count]
  rw [flat_wEach]
  unfold wEach
  rw [List.append_assoc, runF_rCount _ _ _ _ _ h.count]
  simp only [Option.bind_some]
  generalize hctx : ({ ctx with nInt := if ctx.fixed then ctx.nInt else 0, nFloat := if ctx.fixed then ctx.nFloat else 0,
                                nDouble := if ctx.fixed then ctx.nDouble else 0 } : Ctx) = rctx
  have e1 : rctx.flag = c'.flag := by rw [← hctx]; exact hp.flag
  have e2 : rctx.std = std := by rw [← hctx]; exact hp.std
  have e3 : rctx.bit 18 = c.flag.getLsbD 18 := by rw [← hb, ← hctx]; rfl
  rw [e3, hb]
  unfold loadCol colNews colRegs
  cases hs : c.flag.getLsbD 18
  · simp only [Bool.false_eq_true, if_false]
    have hwr : (fun e : Elem => flat (e.write k ctx)) = fun e => flat (e.write k rctx) := by
      funext e
      unfold Elem.write
      cases e.obj with
      | none => rfl
      | some o =>
        simp only
        rw [← hctx, writeObj_sizes]
    rw [hwr, elemsLaw k rctx φ is n rg c.elems]
    · simp only [Option.bind_some, e1, e2, hw, hp.flag]
      rw [elemsRegs_congr c'.flag c.flag k n _ hp.bits]
    · intro e he
      obtain ⟨o, ho, ho2⟩ := h.objects hs e he
      refine ⟨o, ho, ho2, ?_⟩
      cases o with
      | vertex v =>
        have hk : k = .vertex := by cases k <;> simp only [ObjOk] at ho2 <;> rfl
        obtain ⟨q1, q2⟩ := hp.algsOk hk
        simp only [CtxOk]
        rw [← hctx]
        refine ⟨?_, q2 e he v ho⟩
        rw [omFind_str] at q1
        rw [Option.map_eq_some_iff] at q1
        obtain ⟨x, hx, hx2⟩ := q1
        rw [← hx2]
        exact hpo.strs.vals x (List.mem_of_find?_eq_some hx)
      | generic g =>
        have hk : k = .generic := by cases k <;> simp only [ObjOk] at ho2 <;> rfl
        simp only [CtxOk]
        rw [← hctx]
        refine ⟨?_, ?_⟩
        · simp only; rw [hp.fixed, hp.flag, hk]; simp
        · intro hfx
          simp only at hfx
          simp only [hfx, if_true]
          exact hp.sizes hk hfx e he g ho
      | _ => trivial
  · simp only [if_true, flat_wPtr]
    rw [runF_rRepeat φ is n rg ((fun a => { addr := a : Elem }) <$> rPtr) (fun e : Elem => wPtr e.addr) (fun e => ⟨φ e.addr, none⟩) c.elems _ rfl
      (fun x _ is n rg => by rw [runF_map, runF_rPtr]; rfl)]
    simp only [Option.bind_some, hw, hp.flag, Nat.add_zero, List.append_nil]

end Lcio
