import Verif.Lcio.FormatWrites
import Verif.Lcio.CollectionLemmas
/-
Collections in the documented format.
-/
namespace Lcio
open Sio Spec

/-- The state of the handler goes with the description. -/
structure DocCtx (c : Ctx) (k : Kind) (sz : Nat × Nat × Nat) : Prop where
  algs : small c.algs.length
  fixed : c.fixed = (k == .generic && c.flag.getLsbD 31)
  sizes : c.fixed = true → c.nInt = BitVec.ofNat 32 sz.1 ∧ c.nFloat = BitVec.ofNat 32 sz.2.1 ∧ c.nDouble = BitVec.ofNat 32 sz.2.2

/-- What reading an object registers. -/
def docRegs (this : Bool) (addr self n : Nat) (o : Obj) : List (Nat × Nat) := pidRegs n (pidsOf o) ++ if this then [(addr, self)] else []

theorem objReads (c : Ctx) (φ : Nat → Nat) (is : List Item) (n : Nat) (rg : List (Nat × Nat)) (addr self : Nat) (vers : W32) (v : Nat) (l : List FRec)
    (p : Params) (sz : Nat × Nat × Nat) (k : Kind) (o : Obj) (hv : Vers vers v) (h8 : 8 ≤ v) (hd : docAgrees v c.flag k) (h : ObjOk k o)
    (hf : docFits v c.flag c.algs sz o) (hc : DocCtx c k sz) :
    (readObj c vers self k).runF φ ⟨flat (encode v (docRow k).2 [docObj c.std c.algs addr o, head k c.flag p sz l]) ++ is, n, rg⟩ =
    some (seenObj c.std c.flag (fun name => (docRow k).2.has v [docObj c.std c.algs addr o, head k c.flag p sz l] name)
        (fun name => Doc.SimCalorimeterHit.nHits.nContributions.has v [[], [], head k c.flag p sz l] name) φ (List.range' n (pidsOf o).length) o,
      ⟨is, n + (pidsOf o).length, rg ++ docRegs ((docRow k).2.has v [docObj c.std c.algs addr o, head k c.flag p sz l] "this") addr self n o⟩) := by
  cases k <;> cases o <;> simp only [ObjOk] at h <;> simp only [readObj, docRow, docObj, runF_map]
  case mcParticle => rw [MCParticle.reads _ _ _ _ _ _ _ _ _ _ _ _ hv hd _ h]; rfl
  case simCalHit => rw [SimCalHit.reads _ _ _ _ _ _ _ _ _ _ _ _ hv h8 hd _ h]; rfl
  case rawCalHit => rw [RawCalHit.reads _ _ _ _ _ _ _ _ _ _ _ _ hv]; rfl
  case calHit => rw [CalHit.reads _ _ _ _ _ _ _ _ _ _ _ _ hv hd _ h]; rfl
  case simTrackerHit => rw [SimTrackerHit.reads _ _ _ _ _ _ _ _ _ _ _ _ hv _ h]; rfl
  case tpcHit => rw [TPCHit.reads _ _ _ _ _ _ _ _ _ _ _ _ hv _ h]; rfl
  case trackerRawData => rw [TrackerRawData.reads _ _ _ _ _ _ _ _ _ _ _ _ h]; rfl
  case trackerData => rw [TrackerData.reads _ _ _ _ _ _ _ _ _ _ _ _ h]; rfl
  case trackerPulse => rw [TrackerPulse.reads _ _ _ _ _ _ _ _ _ _ _ _ hv _ h]; rfl
  case trackerHit => rw [TrackerHit.reads _ _ _ _ _ _ _ _ _ _ _ _ hv _ h]; rfl
  case trackerHitPlane => rw [TrackerHitPlane.reads _ _ _ _ _ _ _ _ _ _ _ _ hv hd _ h]; rfl
  case trackerHitZCylinder => rw [TrackerHitZCylinder.reads _ _ _ _ _ _ _ _ _ _ _ _ hv hd _ h]; rfl
  case track => rw [Track.reads _ _ _ _ _ _ _ _ _ _ _ _ hv hd _ h]; rfl
  case cluster => rw [Cluster.reads _ _ _ _ _ _ _ _ _ _ _ _ hv _ h hf]; rfl
  case recoParticle => rw [RecoParticle.reads _ _ _ _ _ _ _ _ _ _ _ _ hv hd _ h]; rfl
  case relation => rw [Relation.reads]; fields [docRegs, pidsOf, Doc.LCRelation.nRelations]; simp [pidRegs, seenObj]
  case vertex => rw [Vertex.reads _ _ _ _ _ _ _ _ _ _ _ _ h hc.algs hf]; rfl
  case strVec => rw [strVec_reads _ _ _ _ _ _ _ _ _ _ _ _ hv _ h.1 h.2]; rfl
  case floatVec => rw [floatVec_reads _ _ _ _ _ _ _ _ _ _ _ _ hv _ h]; rfl
  case intVec => rw [intVec_reads _ _ _ _ _ _ _ _ _ _ _ _ hv _ h]; rfl
  case generic =>
    have hb : c.fixed = c.flag.getLsbD 31 := by rw [hc.fixed]; simp
    rw [Generic.reads _ _ _ _ _ _ _ _ _ _ _ _ h hb (fun h => hf (hb ▸ h)) hc.sizes]; rfl

theorem objWrites (c : Ctx) (addr : Nat) (l : List FRec) (p : Params) (sz : Nat × Nat × Nat) (k : Kind) (o : Obj) (hd : k = .calHit → c.flag.getLsbD 28 = false)
    (h : ObjOk k o) (hf : ∀ g, o = .generic g → c.fixed = true → sz = (g.ints.length, g.floats.length, g.doubles.length)) (hc : DocCtx c k sz) :
    flat (encode 2015 (docRow k).2 [docObj c.std c.algs addr (docStored o), head k c.flag p sz l]) = flat (writeObj c addr k o) := by
  cases k <;> cases o <;> simp only [ObjOk] at h <;> simp only [writeObj, docRow, docObj, docStored]
  case mcParticle => exact MCParticle.doc _ _ _ _ _ _ h
  case simCalHit => exact SimCalHit.doc _ _ _ _ _ _ h
  case rawCalHit => exact RawCalHit.doc _ _ _ _ _ _
  case calHit => exact CalHit.doc _ _ _ _ _ (hd rfl) _ h
  case simTrackerHit => exact SimTrackerHit.doc _ _ _ _ _ _ h
  case tpcHit => exact TPCHit.doc _ _ _ _ _ _ h
  case trackerRawData => exact TrackerRawData.doc _ _ _ _ _ _
  case trackerData => exact TrackerData.doc _ _ _ _ _ _
  case trackerPulse => exact TrackerPulse.doc _ _ _ _ _ _ h
  case trackerHit => exact TrackerHit.doc _ _ _ _ _ _ h
  case trackerHitPlane => exact TrackerHitPlane.doc _ _ _ _ _ _ h
  case trackerHitZCylinder => exact TrackerHitZCylinder.doc _ _ _ _ _ _ h
  case track => exact Track.doc _ _ _ _ _ _ h
  case cluster => exact Cluster.doc _ _ _ _ _ _ h
  case recoParticle => exact RecoParticle.doc _ _ _ _ _ _ h
  case relation => exact Relation.doc _ _ _ _ _
  case vertex => exact Vertex.doc _ _ _ _ _ _ h
  case strVec => exact strVec_doc _ _ _ _ _ _ h.1
  case floatVec => exact floatVec_doc _ _ _ _ _ _ h
  case intVec => exact intVec_doc _ _ _ _ _ _ h
  case generic =>
    have hb : c.fixed = c.flag.getLsbD 31 := by rw [hc.fixed]; simp
    exact Generic.doc _ _ _ _ _ _ h hb (hf _ rfl) hc.sizes

/-! ### The beginning of a block -/

theorem doc_params (v : Nat) (p : Params) (h : ParamsOk p) (r : FRec) (s : List FRec) (hs : ∀ name, visible name s = none)
    (h1 : field "nIntParameters" r = some (docParams .word p.ints)) (h2 : field "nFloatParameters" r = some (docParams .word p.floats))
    (h3 : field "nStringParameters" r = some (docParams .text p.strs)) (h4 : field "nVals" r = none) :
    encode v Doc.namedParameters (r :: s) = wIf (decide (1001 < v)) p.write := by
  descr [Doc.namedParameters, Doc.namedParameters.nIntParameters, Doc.namedParameters.nIntParameters.nVals, Doc.namedParameters.nFloatParameters,
    Doc.namedParameters.nFloatParameters.nVals, Doc.namedParameters.nStringParameters, Doc.namedParameters.nStringParameters.nVals, h1, h2, h3, h4, hs, docParams]
  simp only [Params.write, writeMap_eq _ _ h.ints.ordered, writeMap_eq _ _ h.floats.ordered, writeMap_eq _ _ h.strs.ordered, wIf_append, List.append_assoc]

theorem doc_plain (v : Nat) (fl name : String) (body : Fmt) (r : FRec) (flag : W32) (p : Params) (rows : List FRec) (hp : ParamsOk p)
    (h0 : field fl r = some (.word flag)) (h1 : field "nIntParameters" r = some (docParams .word p.ints))
    (h2 : field "nFloatParameters" r = some (docParams .word p.floats)) (h3 : field "nStringParameters" r = some (docParams .text p.strs))
    (h4 : field "nVals" r = none) (h5 : field name r = some (.rows rows)) :
    encode v (.data .int 1 fl <| .sub Doc.namedParameters <| .data .int 1 name <| .rep name body <| .done) [r] =
    w32 flag ++ (wIf (decide (1001 < v)) p.write ++ (w32 (BitVec.ofNat 32 rows.length) ++ rows.flatMap fun x => encode v body [x, r])) := by
  rw [encode_data, encode_sub, doc_params v p hp r [] visible_nil h1 h2 h3 h4, encode_data, encode_rep, encode_done, h0, h5, visible_nil, repRows_none, enc_int,
    enc_int_rows, List.append_nil]

theorem doc_block (v : Nat) (k : Kind) (flag : W32) (p : Params) (sz : Nat × Nat × Nat) (rows : List FRec) (hp : ParamsOk p) :
    encode v (docBlock k) [head k flag p sz rows] = w32 flag ++ (wIf (decide (1001 < v)) p.write ++
      (wIf (k == .generic && flag.getLsbD 31) (w32 (BitVec.ofNat 32 sz.1)) ++ (wIf (k == .generic && flag.getLsbD 31) (w32 (BitVec.ofNat 32 sz.2.1)) ++
      (wIf (k == .generic && flag.getLsbD 31) (w32 (BitVec.ofNat 32 sz.2.2)) ++
      (w32 (BitVec.ofNat 32 rows.length) ++ rows.flatMap fun r => encode v (docRow k).2 [r, head k flag p sz rows]))))) := by
  cases k
  case generic =>
    rw [docBlock, Doc.LCGenericObject, encode_data, encode_sub, encode_when, encode_data, encode_data, encode_data, encode_data, encode_rep, encode_done,
      doc_params v p hp _ [] visible_nil]
    · cases h31 : flag.getLsbD 31
      · descr [h31, repRows_none, and_false, Bool.and_false]
      · descr [h31, repRows_none, and_self, BEq.rfl, Bool.and_self]
    all_goals
      cases h31 : flag.getLsbD 31 <;> descr [h31, and_false, and_self]
  all_goals
    rw [docBlock]
    exact doc_plain v _ _ _ _ flag p rows hp (by descr [true_and]) (by descr [true_and]) (by descr [true_and]) (by descr [true_and]) (by descr [true_and]) (by descr [true_and])

theorem doc_references (v : Nat) (k : Kind) (flag : W32) (p : Params) (es : List Elem) (hp : ParamsOk p) (hg : k = .generic → flag.getLsbD 31 = false) :
    encode v Doc.References [docHead k flag p (0, 0, 0) ++ [("nReferences", column "originalObject" (fun e => .ref e.addr) es)]] =
    w32 flag ++ (wIf (decide (1001 < v)) p.write ++ (w32 (BitVec.ofNat 32 es.length) ++ es.flatMap fun e => wPtr e.addr)) := by
  have hn : ¬ (k = .generic ∧ flag.getLsbD 31 = true) := fun h => by rw [hg h.1] at h; exact Bool.false_ne_true h.2
  rw [docHead, if_neg hn]
  have := doc_plain v "flags" "nReferences" Doc.References.nReferences ([("flags", .word flag), ("flag", .word flag)] ++ docParameters p ++ [] ++
    [("nReferences", column "originalObject" (fun e => .ref e.addr) es)]) flag p (es.map fun e => [("originalObject", .ref e.addr)]) hp
    (by descr [true_and]) (by descr [true_and]) (by descr [true_and]) (by descr [true_and]) (by descr [true_and]) (by descr [true_and])
  rw [Doc.References, this, List.length_map, List.flatMap_map]
  descr [Doc.References.nReferences]

/-! ### Elements -/

/-- The element that is there after reading when `n` is the next identity. -/
def seeElem (std : Std Pid) (v : Nat) (k : Kind) (c : Collection) (φ : Nat → Nat) (n : Nat) (e : Elem) : Elem :=
  ⟨n, e.obj.map fun o => seenObj std c.flag (present std v k c e) (presentCont std v k c) φ (List.range' (n + 1) (pidsOf o).length) o⟩
/-- What is registered for it. -/
def seeRegs (std : Std Pid) (v : Nat) (k : Kind) (c : Collection) (n : Nat) (e : Elem) : List (Nat × Nat) := match e.obj with
  | some o => docRegs (present std v k c e "this") e.addr n (n + 1) o
  | none => []
/-- The elements of a collection that is not a subset. -/
def seeElems (std : Std Pid) (v : Nat) (k : Kind) (c : Collection) (φ : Nat → Nat) : Nat → List Elem → List Elem
  | _, [] => []
  | n, e :: es => seeElem std v k c φ n e :: seeElems std v k c φ (n + elemNews e) es
/-- What is registered for them. -/
def seeAllRegs (std : Std Pid) (v : Nat) (k : Kind) (c : Collection) : Nat → List Elem → List (Nat × Nat)
  | _, [] => []
  | n, e :: es => seeRegs std v k c n e ++ seeAllRegs std v k c (n + elemNews e) es

theorem elemReads (std : Std Pid) (vers : W32) (v : Nat) (k : Kind) (c : Collection) (ctx : Ctx) (φ : Nat → Nat) (is : List Item) (n : Nat) (rg : List (Nat × Nat))
    (hv : Vers vers v) (h8 : 8 ≤ v) (hs : ctx.std = std) (hfl : ctx.flag = c.flag) (ha : ctx.algs = docAlgs k c.params) (hc : DocCtx ctx k (docSize c.elems))
    (hd : docAgrees v c.flag k) (e : Elem) (o : Obj) (he : e.obj = some o) (h : ObjOk k o) (hf : docFits v c.flag (docAlgs k c.params) (docSize c.elems) o) :
    (readElem k ctx vers).runF φ ⟨flat (encode v (docRow k).2 [docElem std (docAlgs k c.params) e, docOuter std k c]) ++ is, n, rg⟩ =
    some (seeElem std v k c φ n e, ⟨is, n + elemNews e, rg ++ seeRegs std v k c n e⟩) := by
  subst hs
  have := objReads ctx φ is (n + 1) rg e.addr n vers v (c.elems.map (docElem ctx.std (docAlgs k c.params))) c.params (docSize c.elems) k o hv h8
    (by rw [hfl]; exact hd) h (by rw [hfl, ha]; exact hf) hc
  rw [hfl, ha] at this
  unfold readElem
  simp only [runF_bind, runF_rNew, Option.bind_some, runF_asFailure, docElem, he]
  change (((readObj ctx vers n k).runF φ ⟨flat (encode v (docRow k).2 [docObj ctx.std (docAlgs k c.params) e.addr o, docOuter ctx.std k c]) ++ is, n + 1, rg⟩).bind _) = _
  have e1 : docOuter ctx.std k c = head k c.flag c.params (docSize c.elems) (c.elems.map (docElem ctx.std (docAlgs k c.params))) := rfl
  rw [e1, this]
  simp only [Option.bind_some, runF_pure, seeElem, elemNews, seeRegs, he, Option.map_some, Nat.add_assoc]
  unfold present presentCont
  simp only [docElem, he, e1]

theorem elemsReads (std : Std Pid) (vers : W32) (v : Nat) (k : Kind) (c : Collection) (ctx : Ctx) (φ : Nat → Nat) (is : List Item) (n : Nat) (rg : List (Nat × Nat))
    (hv : Vers vers v) (h8 : 8 ≤ v) (hs : ctx.std = std) (hfl : ctx.flag = c.flag) (ha : ctx.algs = docAlgs k c.params) (hc : DocCtx ctx k (docSize c.elems))
    (hd : docAgrees v c.flag k) (es : List Elem)
    (h : ∀ e ∈ es, ∃ o, e.obj = some o ∧ ObjOk k o ∧ docFits v c.flag (docAlgs k c.params) (docSize c.elems) o) :
    (rRepeat es.length (readElem k ctx vers)).runF φ
      ⟨(es.flatMap fun e => flat (encode v (docRow k).2 [docElem std (docAlgs k c.params) e, docOuter std k c])) ++ is, n, rg⟩ =
    some (seeElems std v k c φ n es, ⟨is, n + elemsNews es, rg ++ seeAllRegs std v k c n es⟩) := by
  induction es generalizing n rg with
  | nil => simp [rRepeat, seeElems, seeAllRegs, elemsNews, runF_ret]
  | cons e es ih =>
    obtain ⟨o, he, ho, hf⟩ := h e (by simp)
    simp only [List.length_cons, rRepeat, List.flatMap_cons, List.append_assoc, runF_bind,
      elemReads std vers v k c ctx φ _ _ _ hv h8 hs hfl ha hc hd e o he ho hf, Option.bind_some, ih _ _ (fun x hx => h x (by simp [hx])), runF_pure]
    simp only [seeElems, seeAllRegs, elemsNews, Nat.add_assoc]

/-! ### Collections -/

/-- The parameters that are read. -/
def seeParams (v : Nat) (p : Params) : Params := if 1001 < v then p else {}

theorem headReads (std : Std Pid) (k : Kind) (vers : W32) (v : Nat) (hv : Vers vers v) (flag : W32) (p : Params) (hp : ParamsOk p) (ha : p.readOnly = false)
    (a b d : W32) (φ : Nat → Nat) (is : List Item) (n : Nat) (rg : List (Nat × Nat)) (g : Bool) (hg : (k == .generic && flag.getLsbD 31) = g) :
    (readHead std k vers).runF φ ⟨w32 flag ++ (wIf (decide (1001 < v)) (flat p.write) ++ (wIf g (w32 a) ++ (wIf g (w32 b) ++ (wIf g (w32 d) ++ is)))), n, rg⟩ =
    some (({ std, flag, fixed := g, nInt := if g then a else 0, nFloat := if g then b else 0, nDouble := if g then d else 0,
             algs := if k == .vertex then getVals (seeParams v p).strs vertexKey [] else [] }, seeParams v p), ⟨is, n, rg⟩) := by
  have hr : ({ p with readOnly := false } : Params) = p := by rw [← ha]
  unfold seeParams
  by_cases h1 : 1001 < v
  · rules [readHead, hv.n1_1, decide_eq_true h1, if_pos h1, wIf_true, if_true, runF_params _ _ _ _ _ hp, hr, hg]
  · rules [readHead, hv.n1_1, decide_eq_false h1, if_neg h1, wIf_false, Bool.false_eq_true, if_false, hg, List.nil_append]

/-- The collection that is there after reading when `n` is the next identity. -/
def seeCol (std : Std Pid) (v : Nat) (φ : Nat → Nat) (n : Nat) (c : Collection) : Collection :=
  { type := c.type, flag := c.flag, params := seeParams v c.params,
    elems := if c.flag.getLsbD 18 then c.elems.map (fun e => ⟨φ e.addr, none⟩) else seeElems std v (kindD c) c φ n c.elems }
/-- What is registered. -/
def seeColRegs (std : Std Pid) (v : Nat) (n : Nat) (c : Collection) : List (Nat × Nat) :=
  if c.flag.getLsbD 18 then [] else seeAllRegs std v (kindD c) c n c.elems

theorem collectionReads (std : Std Pid) (vers : W32) (v : Nat) (hv : Vers vers v) (h8 : 8 ≤ v) (k : Kind) (c : Collection) (h : DocColOk v k c) (φ : Nat → Nat)
    (is : List Item) (n : Nat) (rg : List (Nat × Nat)) :
    (Collection.read std c.type vers).runF φ ⟨flat (docCollection std v k c) ++ is, n, rg⟩ =
    some (seeCol std v φ n c, ⟨is, n + colNews c, rg ++ seeColRegs std v n c⟩) := by
  have hkd : kindD c = k := by unfold kindD; rw [h.kind]; rfl
  unfold Collection.read docCollection
  rw [h.kind]
  unfold seeCol colNews seeColRegs
  cases hs : c.flag.getLsbD 18
  · simp only [Bool.false_eq_true, if_false]
    have e1 : docOuter std k c = head k c.flag c.params (docSize c.elems) (c.elems.map (docElem std (docAlgs k c.params))) := rfl
    rw [e1, doc_block v k _ _ _ _ h.params, ← e1]
    simp only [flat_append, flat_wIf, flat_w32, List.append_assoc, runF_bind, headReads std k vers v hv c.flag c.params h.params h.access _ _ _ _ _ _ _ _ rfl,
      Option.bind_some, Ctx.bit, hs, Bool.false_eq_true, if_false, List.length_map, runF_rCount _ _ _ _ _ h.count, List.flatMap_map, flat_flatMap, hkd]
    rw [elemsReads std vers v k c _ φ is n rg hv h8 rfl rfl ?_ ⟨?_, rfl, ?_⟩ (h.agrees hs) c.elems (h.objects hs)]
    · simp only [Option.bind_some, runF_pure]
    · have ha := h.agrees hs
      cases k <;> simp only [docAlgs] <;> first | rfl | (simp only [docAgrees] at ha; simp [seeParams, ha])
    · by_cases hk : k = .vertex
      · subst hk
        simp only [BEq.rfl, if_true, getVals]
        split
        · simp [small]
        · rename_i vs hvs
          have hq : ParamsOk (seeParams v c.params) := by
            unfold seeParams
            split
            · exact h.params
            · constructor <;> constructor <;> simp [Ordered]
          rw [omFind_str, Option.map_eq_some_iff] at hvs
          obtain ⟨x, hx, rfl⟩ := hvs
          rw [List.nil_append]
          exact hq.strs.vals x (List.mem_of_find?_eq_some hx)
      · have : (k == Kind.vertex) = false := by simpa using hk
        simp [this, small]
    · intro hf
      simp only at hf
      rw [if_pos hf, if_pos hf, if_pos hf]
      exact ⟨rfl, rfl, rfl⟩
  · simp only [if_true]
    rw [doc_references v k _ _ _ h.params fun hk => h.subset hk hs]
    have hg : (k == Kind.generic && c.flag.getLsbD 31) = false := by
      by_cases hk : k = .generic
      · rw [h.subset hk hs, Bool.and_false]
      · simp [hk]
    have hh := fun is n rg => headReads std k vers v hv c.flag c.params h.params h.access 0 0 0 φ is n rg false hg
    simp only [wIf_false, List.nil_append] at hh
    simp only [flat_append, flat_wIf, flat_w32, List.append_assoc, runF_bind, hh, Option.bind_some, Ctx.bit, hs, if_true, runF_rCount _ _ _ _ _ h.count,
      flat_flatMap, flat_wPtr]
    rw [runF_rRepeat φ is n rg ((fun a => { addr := a : Elem }) <$> rPtr) (fun e : Elem => wPtr e.addr) (fun e => ⟨φ e.addr, none⟩) c.elems _ rfl
      (fun x _ is n rg => by rw [runF_map, runF_rPtr]; rfl)]
    simp only [Option.bind_some, runF_pure, Nat.add_zero, List.append_nil]

/-! ### Writing -/

theorem prepare_sizes (std : Std Pid) (c c' : Collection) (ctx : Ctx) (h : c.prepare std .generic = .ok (ctx, c')) :
    allFixed c.elems = .ok ctx.fixed ∧ ctx.nInt = BitVec.ofNat 32 (((firstGeneric c.elems).map (·.ints.length)).getD 0) ∧
    ctx.nFloat = BitVec.ofNat 32 (((firstGeneric c.elems).map (·.floats.length)).getD 0) ∧
    ctx.nDouble = BitVec.ofNat 32 (((firstGeneric c.elems).map (·.doubles.length)).getD 0) := by
  unfold Collection.prepare at h
  simp only [bind, Except.bind] at h
  split at h
  · cases h
  · rename_i b hb
    split at h
    · cases h
    · split at h
      · split at h
        · cases h
        · simp only [pure, Except.pure, Except.ok.injEq, Prod.mk.injEq] at h
          obtain ⟨rfl, _⟩ := h
          exact ⟨hb, rfl, rfl, rfl⟩
      · simp only [pure, Except.pure, Except.ok.injEq, Prod.mk.injEq] at h
        obtain ⟨rfl, _⟩ := h
        exact ⟨hb, rfl, rfl, rfl⟩

theorem docSize_first (es : List Elem) : docSize es = (((firstGeneric es).map (·.ints.length)).getD 0, ((firstGeneric es).map (·.floats.length)).getD 0,
    ((firstGeneric es).map (·.doubles.length)).getD 0) := by
  match es with
  | [] => rfl
  | ⟨_, none⟩ :: _ => rfl
  | ⟨_, some o⟩ :: _ => cases o <;> rfl

theorem docSize_stored (es : List Elem) : docSize (es.map fun e => { e with obj := e.obj.map docStored }) = docSize es := by
  match es with
  | [] => rfl
  | ⟨_, none⟩ :: _ => rfl
  | ⟨_, some o⟩ :: _ => cases o <;> rfl

theorem collectionWrites (std : Std Pid) (k : Kind) (c : Collection) (h : CollectionOk std k c) (hd : Described std k c) :
    flat (c.write std) = flat (docCollection std 2015 k (docWritten std c)) := by
  obtain ⟨ctx, c', hp⟩ := prepare_ok std k c h.access h.vertices h.generic
  have hw := written_eq std k c ctx c' h.kind hp
  have hpo : ParamsOk c'.params := by rw [← hw]; exact h.params
  have hb : ctx.bit 18 = c'.flag.getLsbD 18 := by unfold Ctx.bit; rw [hp.flag]
  have ha : docAlgs k c'.params = ctx.algs := by
    unfold docAlgs
    split
    · rename_i hk; exact hp.algs hk
    · rename_i hk; exact (hp.noAlgs hk).symm
  have hsz : ctx.fixed = true → ctx.nInt = BitVec.ofNat 32 (docSize c.elems).1 ∧ ctx.nFloat = BitVec.ofNat 32 (docSize c.elems).2.1 ∧
      ctx.nDouble = BitVec.ofNat 32 (docSize c.elems).2.2 := by
    intro hf
    have hk : k = .generic := by rw [hp.fixed] at hf; simp only [Bool.and_eq_true, beq_iff_eq] at hf; exact hf.1
    subst hk
    obtain ⟨_, q⟩ := prepare_sizes std c c' ctx hp.eq
    rw [docSize_first]
    exact q
  unfold docWritten docCollection
  rw [hw]
  unfold Collection.write
  rw [h.kind]
  simp only [hp.eq]
  cases hs : c'.flag.getLsbD 18
  · have hs0 : c.flag.getLsbD 18 = false := by rw [← hp.bits 18 (by decide)]; exact hs
    simp only [Bool.false_eq_true, if_false, hb, hs]
    have e1 : docOuter std k { c' with elems := c'.elems.map fun e => { e with obj := e.obj.map docStored } } = head k c'.flag c'.params (docSize c.elems)
        ((c'.elems.map fun e => ({ e with obj := e.obj.map docStored } : Elem)).map (docElem std ctx.algs)) := by
      unfold docOuter head
      simp only [ha, docSize_stored, hp.elems]
    rw [e1, doc_block 2015 k _ _ _ _ hpo, ← e1]
    rw [hp.elems, wFor_eq _ _ h.count]
    have hg : (k == .generic && ctx.fixed) = (k == .generic && c'.flag.getLsbD 31) := by rw [hp.fixed]; cases (k == Kind.generic) <;> simp
    have hws : wIf (k == .generic && ctx.fixed) (w32 ctx.nInt) ++ (wIf (k == .generic && ctx.fixed) (w32 ctx.nFloat) ++
        wIf (k == .generic && ctx.fixed) (w32 ctx.nDouble)) = wIf (k == .generic && c'.flag.getLsbD 31) (w32 (BitVec.ofNat 32 (docSize c.elems).1)) ++
        (wIf (k == .generic && c'.flag.getLsbD 31) (w32 (BitVec.ofNat 32 (docSize c.elems).2.1)) ++
        wIf (k == .generic && c'.flag.getLsbD 31) (w32 (BitVec.ofNat 32 (docSize c.elems).2.2))) := by
      rw [hg]
      cases hq : (k == .generic && c'.flag.getLsbD 31)
      · rfl
      · obtain ⟨s1, s2, s3⟩ := hsz (by rw [hp.fixed, hq])
        rw [s1, s2, s3]
    simp only [writeHead, List.append_assoc, wEach, List.length_map, Nat.reduceLT, decide_true, wIf_true]
    rw [← List.append_assoc (wIf _ (w32 ctx.nFloat)), ← List.append_assoc (wIf _ (w32 ctx.nInt)), hws]
    simp only [flat_append, List.append_assoc, List.flatMap_map, flat_flatMap]
    congr 6
    apply flatMap_mem
    intro e he
    obtain ⟨o, ho, ho2⟩ := h.objects hs0 e he
    simp only [Elem.write, docElem, ho, Option.map_some]
    have hctx : DocCtx ctx k (docSize c.elems) := by
      refine ⟨?_, by rw [hp.fixed, hp.flag], hsz⟩
      by_cases hk : k = .vertex
      · obtain ⟨q1, q2⟩ := hp.algsOk hk
        rw [omFind_str, Option.map_eq_some_iff] at q1
        obtain ⟨x, hx, hx2⟩ := q1
        rw [← hx2]
        exact hpo.strs.vals x (List.mem_of_find?_eq_some hx)
      · rw [hp.noAlgs hk]; simp [small]
    have := objWrites ctx e.addr ((c'.elems.map fun e => ({ e with obj := e.obj.map docStored } : Elem)).map (docElem std ctx.algs)) c'.params (docSize c.elems) k o
      (fun hk => by rw [hp.flag, hp.bits 28 (by decide)]; exact hd.calHit hk hs0) ho2 ?_ hctx
    · rw [← this, ← hp.elems, e1, hp.std, hp.flag, hp.elems]
    · intro g hg hf
      subst hg
      have hk : k = .generic := by rw [hp.fixed] at hf; simp only [Bool.and_eq_true, beq_iff_eq] at hf; exact hf.1
      subst hk
      obtain ⟨hall, _⟩ := prepare_sizes std c c' ctx hp.eq
      have hgc := h.generic rfl
      obtain ⟨b, hb1, hb2⟩ := allFixed_ok c.elems hgc.objects
      rw [hb1, Except.ok.injEq] at hall
      rw [hall] at hb2
      have hsizes := hgc.sizes (hb2.1 hf)
      match hfg : firstGeneric c.elems with
      | none => rw [firstGeneric_none _ hgc.objects hfg] at he; cases he
      | some x =>
        obtain ⟨e', he', hx⟩ := firstGeneric_some _ _ hfg
        obtain ⟨s1, s2, s3⟩ := hsizes e' he' e he x g hx ho
        rw [docSize_first, hfg]
        simp [s1, s2, s3]
  · have hs0 : c.flag.getLsbD 18 = true := by rw [← hp.bits 18 (by decide)]; exact hs
    simp only [if_true, hb, hs]
    rw [doc_references 2015 k _ _ _ hpo (fun hk => by have := hd.subset hk hs0; rwa [hw] at this)]
    have hg : (k == .generic && ctx.fixed) = false := by
      by_cases hk : k = .generic
      · rw [hp.fixed, ← hw, hd.subset hk hs0]; simp
      · simp [hk]
    rw [hp.elems, wFor_eq _ _ h.count]
    simp only [writeHead, hg, wIf_false, List.append_nil, List.append_assoc, wEach, List.length_map, Nat.reduceLT, decide_true, wIf_true, List.flatMap_map]

end Lcio
