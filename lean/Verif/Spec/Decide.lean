import Verif.Spec.Event
/-
The conditions on events can be decided. Only used for concrete events.
-/
namespace Spec
open Sio Lcio

instance {α : Type} (m : List (Str × α)) : Decidable (Ordered strLt m) := by unfold Ordered; infer_instance
instance {α : Type} (ok : α → Prop) [DecidablePred ok] (m : VecMap α) : Decidable (MapOk ok m) :=
  decidable_of_iff (Ordered strLt m ∧ m.length < 2 ^ 31 ∧ (∀ e ∈ m, e.1.length < 2 ^ 31) ∧ (∀ e ∈ m, e.2.length < 2 ^ 31) ∧ ∀ e ∈ m, ∀ v ∈ e.2, ok v)
    ⟨fun ⟨a, b, c, d, e⟩ => ⟨a, b, c, d, e⟩, fun ⟨a, b, c, d, e⟩ => ⟨a, b, c, d, e⟩⟩
instance (p : Params) : Decidable (ParamsOk p) :=
  decidable_of_iff (MapOk (fun _ => True) p.ints ∧ MapOk (fun _ => True) p.floats ∧ MapOk (fun s => s.length < 2 ^ 31) p.strs)
    ⟨fun ⟨a, b, c⟩ => ⟨a, b, c⟩, fun ⟨a, b, c⟩ => ⟨a, b, c⟩⟩
instance (e : EventHeader) : Decidable (EventHeaderOk e) :=
  decidable_of_iff (e.det.length < 2 ^ 31 ∧ e.cols.length < 2 ^ 31 ∧ Ordered strLt e.cols ∧ (∀ c ∈ e.cols, validate c.1 = true ∧ c.1.length < 2 ^ 31) ∧
      (∀ c ∈ e.cols, c.2.type.length + 11 < 2 ^ 31) ∧ ParamsOk e.params)
    ⟨fun ⟨a, b, c, d, e, f⟩ => ⟨a, b, c, d, e, f⟩, fun ⟨a, b, c, d, e, f⟩ => ⟨a, b, c, d, e, f⟩⟩

instance (o : MCParticle) : Decidable (MCParticleOk o) :=
  decidable_of_iff (o.vertex.length = 3 ∧ o.p.length = 3 ∧ o.endpoint.length = 3 ∧ o.pEndpoint.length = 3 ∧ o.spin.length = 3 ∧
      o.colorFlow.length = 2 ∧ small o.parents.length)
    ⟨fun ⟨a, b, c, d, e, f, g⟩ => ⟨a, b, c, d, e, f, g⟩, fun ⟨a, b, c, d, e, f, g⟩ => ⟨a, b, c, d, e, f, g⟩⟩
instance (o : SimCalHit) : Decidable (SimCalHitOk o) :=
  decidable_of_iff (o.position.length = 3 ∧ small o.conts.length ∧ ∀ c ∈ o.conts, c.stepPosition.length = 3)
    ⟨fun ⟨a, b, c⟩ => ⟨a, b, c⟩, fun ⟨a, b, c⟩ => ⟨a, b, c⟩⟩
instance (o : SimTrackerHit) : Decidable (SimTrackerHitOk o) :=
  decidable_of_iff (o.pos.length = 3 ∧ o.p.length = 3) ⟨fun ⟨a, b⟩ => ⟨a, b⟩, fun ⟨a, b⟩ => ⟨a, b⟩⟩
instance (o : TrackerHit) : Decidable (TrackerHitOk o) :=
  decidable_of_iff (o.pos.length = 3 ∧ o.cov.length = 6 ∧ small o.rawHits.length) ⟨fun ⟨a, b, c⟩ => ⟨a, b, c⟩, fun ⟨a, b, c⟩ => ⟨a, b, c⟩⟩
instance (o : TrackerHitPlane) : Decidable (TrackerHitPlaneOk o) :=
  decidable_of_iff (o.pos.length = 3 ∧ o.u.length = 2 ∧ o.v.length = 2 ∧ small o.rawHits.length)
    ⟨fun ⟨a, b, c, d⟩ => ⟨a, b, c, d⟩, fun ⟨a, b, c, d⟩ => ⟨a, b, c, d⟩⟩
instance (o : TrackerHitZCylinder) : Decidable (TrackerHitZCylinderOk o) :=
  decidable_of_iff (o.pos.length = 3 ∧ o.center.length = 2 ∧ small o.rawHits.length) ⟨fun ⟨a, b, c⟩ => ⟨a, b, c⟩, fun ⟨a, b, c⟩ => ⟨a, b, c⟩⟩
instance (o : Track) : Decidable (TrackOk o) :=
  decidable_of_iff (small o.states.length ∧ (∀ s ∈ o.states, s.cov.length = 15 ∧ s.reference.length = 3) ∧
      (o.states.Pairwise fun s t => s.location ≠ t.location ∨ s.location = 0) ∧ small o.hitNumbers.length ∧ small o.tracks.length ∧ small o.hits.length)
    ⟨fun ⟨a, b, c, d, e, f⟩ => ⟨a, b, c, d, e, f⟩, fun ⟨a, b, c, d, e, f⟩ => ⟨a, b, c, d, e, f⟩⟩
instance (o : Cluster) : Decidable (ClusterOk o) :=
  decidable_of_iff (o.position.length = 3 ∧ o.posError.length = 6 ∧ o.dirError.length = 3 ∧ small o.shape.length ∧ small o.pids.length ∧
      (∀ p ∈ o.pids, small p.params.length) ∧ small o.clusters.length ∧ small o.hits.length ∧ o.weights.length = o.hits.length ∧ small o.energies.length)
    ⟨fun ⟨a, b, c, d, e, f, g, h, i, j⟩ => ⟨a, b, c, d, e, f, g, h, i, j⟩, fun ⟨a, b, c, d, e, f, g, h, i, j⟩ => ⟨a, b, c, d, e, f, g, h, i, j⟩⟩
instance (o : RecoParticle) : Decidable (RecoParticleOk o) :=
  decidable_of_iff (o.momentum.length = 3 ∧ o.cov.length = 10 ∧ o.reference.length = 3 ∧ small o.pids.length ∧ (∀ p ∈ o.pids, small p.params.length) ∧
      small o.particles.length ∧ small o.tracks.length ∧ small o.clusters.length)
    ⟨fun ⟨a, b, c, d, e, f, g, h⟩ => ⟨a, b, c, d, e, f, g, h⟩, fun ⟨a, b, c, d, e, f, g, h⟩ => ⟨a, b, c, d, e, f, g, h⟩⟩
instance (o : Vertex) : Decidable (VertexOk o) :=
  decidable_of_iff (o.pos.length = 3 ∧ o.cov.length = 6 ∧ small o.params.length) ⟨fun ⟨a, b, c⟩ => ⟨a, b, c⟩, fun ⟨a, b, c⟩ => ⟨a, b, c⟩⟩
instance (o : Generic) : Decidable (GenericOk o) :=
  decidable_of_iff (small o.ints.length ∧ small o.floats.length ∧ small o.doubles.length) ⟨fun ⟨a, b, c⟩ => ⟨a, b, c⟩, fun ⟨a, b, c⟩ => ⟨a, b, c⟩⟩

instance (k : Kind) (o : Obj) : Decidable (ObjOk k o) := by unfold ObjOk; split <;> infer_instance

instance (e : Elem) (P : Obj → Prop) [DecidablePred P] : Decidable (∃ o, e.obj = some o ∧ P o) :=
  match h : e.obj with
  | none => isFalse (by simp)
  | some o => decidable_of_iff (P o) (by simp)
instance (e : Elem) : Decidable (∃ o, e.obj = some (.vertex o)) :=
  decidable_of_iff ((match e.obj with | some (.vertex _) => true | _ => false) = true) (by
    cases h : e.obj with
    | none => simp
    | some o => cases o <;> simp)
instance (e : Elem) : Decidable (∃ o, e.obj = some (.generic o)) :=
  decidable_of_iff ((match e.obj with | some (.generic _) => true | _ => false) = true) (by
    cases h : e.obj with
    | none => simp
    | some o => cases o <;> simp)
instance (es : List Elem) : Decidable (allGeneric es) := inferInstanceAs (Decidable (∀ e ∈ es, ∃ o, e.obj = some (.generic o)))
instance (e : Elem) (P : Generic → Prop) [DecidablePred P] : Decidable (∀ o, e.obj = some (.generic o) → P o) :=
  decidable_of_iff ((match e.obj with | some (.generic o) => decide (P o) | _ => true) = true) (by
    cases h : e.obj with
    | none => simp
    | some o => cases o <;> simp)
instance (e e' : Elem) (P : Generic → Generic → Prop) [∀ a b, Decidable (P a b)] :
    Decidable (∀ o o', e.obj = some (.generic o) → e'.obj = some (.generic o') → P o o') :=
  decidable_of_iff (∀ o, e.obj = some (.generic o) → ∀ o', e'.obj = some (.generic o') → P o o')
    ⟨fun h o o' a b => h o a o' b, fun h o a o' b => h o o' a b⟩
instance (c : Collection) : Decidable (GenericColOk c) :=
  decidable_of_iff (allGeneric c.elems ∧ ((∀ e ∈ c.elems, ∀ o, e.obj = some (.generic o) → o.fixed = true) ∨ c.flag.getLsbD 31 = false) ∧
      ((∀ e ∈ c.elems, ∀ o, e.obj = some (.generic o) → o.fixed = true) →
        ∀ e ∈ c.elems, ∀ e' ∈ c.elems, ∀ o o', e.obj = some (.generic o) → e'.obj = some (.generic o') →
          o.ints.length = o'.ints.length ∧ o.floats.length = o'.floats.length ∧ o.doubles.length = o'.doubles.length) ∧
      omFind strLt (str "TypeName") c.params.strs ≠ some [] ∧ omFind strLt (str "DataDescription") c.params.strs ≠ some [])
    ⟨fun ⟨a, b, c, d, e⟩ => ⟨a, b, c, d, e⟩, fun ⟨a, b, c, d, e⟩ => ⟨a, b, c, d, e⟩⟩
instance (std : Std Pid) (k : Kind) (c : Collection) : Decidable (CollectionOk std k c) :=
  decidable_of_iff (kindOf c.type = some k ∧ small c.elems.length ∧ c.params.readOnly = false ∧ ParamsOk (c.written std).params ∧
      (c.flag.getLsbD 18 = false → ∀ e ∈ c.elems, ∃ o, e.obj = some o ∧ ObjOk k o) ∧
      (k = .vertex → ∀ e ∈ c.elems, ∃ o, e.obj = some (.vertex o)) ∧ (k = .generic → GenericColOk c))
    ⟨fun ⟨a, b, c, d, e, f, g⟩ => ⟨a, b, c, d, e, f, g⟩, fun ⟨a, b, c, d, e, f, g⟩ => ⟨a, b, c, d, e, f, g⟩⟩
instance (std : Std Pid) (only : List Str) (cols : List (Str × Collection)) : Decidable (EventOk std only cols) :=
  decidable_of_iff ((cols.map (·.1)).Nodup ∧ (∀ c ∈ storedCols only cols, CollectionOk std (kindD c.2) c.2) ∧
      Writable eventRecordName (eventBlocks std only cols) ∧ (allTagged (storedCols only cols)).Nodup ∧ 0 ∉ allTagged (storedCols only cols))
    ⟨fun ⟨a, b, c, d, e⟩ => ⟨a, b, c, d, e⟩, fun ⟨a, b, c, d, e⟩ => ⟨a, b, c, d, e⟩⟩

/-- `ParentsEarlier`, as a loop. -/
def earlierLoop (seen : List (Str × Collection)) : List (Str × Collection) → Prop
  | [] => True
  | c :: cs => (isMC c = true → ∀ e ∈ c.2.elems, ∀ p ∈ parentsOf e, p ∈ mcAddrs (seen ++ [c])) ∧ earlierLoop (seen ++ [c]) cs
instance : ∀ seen cs, Decidable (earlierLoop seen cs)
  | _, [] => isTrue trivial
  | seen, c :: cs =>
    haveI := instDecidableEarlierLoop (seen ++ [c]) cs
    inferInstanceAs (Decidable (_ ∧ _))

theorem earlierLoop_iff (seen cs : List (Str × Collection)) : earlierLoop seen cs ↔
    ∀ pre c post, cs = pre ++ c :: post → isMC c = true → ∀ e ∈ c.2.elems, ∀ p ∈ parentsOf e, p ∈ mcAddrs (seen ++ pre ++ [c]) := by
  induction cs generalizing seen with
  | nil =>
    refine ⟨fun _ pre c post h => ?_, fun _ => trivial⟩
    cases pre <;> cases h
  | cons c cs ih =>
    refine ⟨fun ⟨h1, h2⟩ pre c' post h => ?_, fun h => ⟨?_, ?_⟩⟩
    · cases pre with
      | nil =>
        rw [List.nil_append, List.cons.injEq] at h
        rw [← h.1, List.append_nil]; exact h1
      | cons a pre =>
        rw [List.cons_append, List.cons.injEq] at h
        have := (ih _).1 h2 pre c' post h.2
        rw [h.1, List.append_assoc seen [a] pre] at this
        exact this
    · have := h [] c cs rfl
      rwa [List.append_nil] at this
    · refine (ih _).2 fun pre c' post he => ?_
      have := h (c :: pre) c' post (by rw [he]; rfl)
      rw [List.append_assoc seen [c] pre]
      exact this

instance (cs : List (Str × Collection)) : Decidable (ParentsEarlier cs) := decidable_of_iff _ ((earlierLoop_iff [] cs).trans (by simp only [List.nil_append]; exact Iff.rfl))
instance (cs : List (Str × Collection)) : Decidable (SubsetsInside cs) :=
  inferInstanceAs (Decidable (∀ c ∈ cs, c.2.flag.getLsbD 18 = true → ∀ e ∈ c.2.elems, e.addr ∈ allTagged cs))
instance (std : Std Pid) (ignoreNull : Bool) (only wanted : List Str) (h : EventHeader) (cols : List (Str × Collection)) :
    Decidable (Storable std ignoreNull only wanted h cols) :=
  decidable_of_iff (EventHeaderOk { h with cols := colHeads cols } ∧ Writable headerRecordName [EventHeader.block only { h with cols := colHeads cols }] ∧
      EventOk std only cols ∧ ParentsEarlier (wantedCols wanted (storedCols only cols)) ∧
      (ignoreNull = true ∨ SubsetsInside (wantedCols wanted (storedCols only cols))))
    ⟨fun ⟨a, b, c, d, e⟩ => ⟨a, b, c, d, e⟩, fun ⟨a, b, c, d, e⟩ => ⟨a, b, c, d, e⟩⟩

end Spec
