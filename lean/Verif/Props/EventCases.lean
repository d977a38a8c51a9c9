import Verif.Props.Events2
import Verif.Spec.Decide
/-
Concrete events: cases that meet the hypotheses of C39-C44, and cases where the properties fail.
-/
namespace Props
open Sio Spec Lcio

/-- Two generations of particles in two collections, a collection with a daughter of both, and a subset. -/
def sampleCols : List (Str × Collection) :=
  [(str "Clus", { type := str "Cluster", flag := 0x80000000, elems := [⟨50, some (.cluster
      { energy := 0x41200000, pids := [⟨0, 0x3f000000, 1, 11, 5, [7, 8]⟩, ⟨0, 0x3e800000, 2, 22, 5, []⟩], clusters := [], hits := [0], weights := [0x3f800000], energies := [1, 2] })⟩] }),
   (str "Gen", { type := str "LCGenericObject", elems := [⟨60, some (.generic { ints := [1], doubles := [2], fixed := true, descr := str "i:a,d:b" })⟩,
      ⟨61, some (.generic { ints := [3], doubles := [4], fixed := true })⟩] }),
   (str "Hits", { type := str "SimTrackerHit", flag := 0x40000000, elems := [⟨20, some (.simTrackerHit { cellID0 := 5, particle := 12, pathLength := 9 })⟩] }),
   (str "MC", { type := str "MCParticle", elems :=
      [⟨10, some (.mcParticle { pdg := 11, p := [0x3fb999999999999a, 0, 0], daughters := [11, 12] })⟩,
       ⟨11, some (.mcParticle { pdg := 22, simStatus := 0x80000000, endpoint := [1, 2, 3], parents := [10], daughters := [12] })⟩] }),
   (str "MCLate", { type := str "MCParticle", params := { ints := [(str "n", [1, 2])] }, elems := [⟨12, some (.mcParticle { pdg := 13, parents := [10, 11] })⟩] }),
   (str "Prim", { type := str "MCParticle", flag := 0x40000, elems := [⟨11, none⟩, ⟨12, none⟩] }),
   (str "Recos", { type := str "ReconstructedParticle", elems := [⟨40, some (.recoParticle
      { energy := 0x4024000000000000, pids := [⟨41, 0x3f000000, 1, 11, 5, [7]⟩, ⟨42, 0x3e800000, 2, 22, 5, []⟩], pidUsed := 42, tracks := [30], clusters := [50], startVertex := 70 })⟩] }),
   (str "Rel", { type := str "LCRelation", flag := 0x80000000, elems := [⟨80, some (.relation { from_ := 40, «to» := 12, weight := 0x3f000000 })⟩] }),
   (str "Tracks", { type := str "Track", flag := 0x80000000, elems := [⟨30, some (.track { hitNumbers := [3], hits := [20, 99], states := [{ location := 1 }, { location := 2, phi := 4 }] })⟩] }),
   (str "Vtx", { type := str "Vertex", elems := [⟨70, some (.vertex { primary := 1, algorithmType := str "ZV", params := [1], particle := 40 })⟩] })]

/-- The header of the sample event. -/
def sampleEventHeader : EventHeader := { run := 3, evt := 7, det := str "ILD", params := sampleParams }

/-- The sample event meets the hypotheses of C39-C44. -/
theorem sampleEvent_ok : Storable ieee false [] [] sampleEventHeader sampleCols := by decide +kernel

/-- The reader can also ask for some of the collections only; the subset has then null pointers unless those are ignored. -/
example : Storable ieee true [str "MC", str "Prim"] [str "Prim"] sampleEventHeader sampleCols := by decide +kernel

/-! ## Where the properties fail -/

/-- Addresses, parents and daughters of all elements of the loaded collections. -/
def family (r : Except Err (EventHeader × List (Str × Collection))) : Except Err (List (List (Nat × List Nat × List Nat))) :=
  r.map fun x => x.2.map fun c => c.2.elems.map fun e => (e.addr, parentsOf e, daughtersOf e)

/-- A collection of MCParticles with these addresses and parents. -/
def mcCol (l : List (Nat × List Nat)) : Collection := { type := str "MCParticle", elems := l.map fun e => ⟨e.1, some (.mcParticle { parents := e.2 })⟩ }

/-- All but `Storable.parents`. -/
def StorableButParents (cols : List (Str × Collection)) : Prop :=
  EventHeaderOk { cols := colHeads cols } ∧ Writable headerRecordName [EventHeader.block [] { cols := colHeads cols }] ∧ EventOk ieee [] cols ∧
  SubsetsInside cols ∧ ∀ e ∈ mcElems cols, ∀ p ∈ parentsOf e, p ∈ mcAddrs cols
instance (cols : List (Str × Collection)) : Decidable (StorableButParents cols) := by unfold StorableButParents; infer_instance

/-- **C39** fails. The parent is in a collection that comes later in the event (and has no parents itself): after loading the particle has its
parent twice. Line 114-120 of SIOParticleHandler.cc takes the daughters that have just been restored for daughters read from an old file. -/
theorem C39_fails_for_later_parent : ∃ cols, StorableButParents cols ∧ cols = [(str "A", mcCol [(11, [12])]), (str "B", mcCol [(12, [])])] ∧
    family (storeLoadEvent ieee false [] [] ([], []) 0 1 {} cols) = .ok [[(1, [2, 2], [])], [(2, [], [1])]] := ⟨_, by decide +kernel, rfl, by decide +kernel⟩

/-- **C40** fails. A parent in a later collection, in which there are also particles with parents: the daughters of the latter are missing. -/
theorem C40_fails_for_later_parent : ∃ cols, StorableButParents cols ∧
    cols = [(str "A", mcCol [(11, [13])]), (str "B", mcCol [(12, []), (13, [12])])] ∧
    family (storeLoadEvent ieee false [] [] ([], []) 0 1 {} cols) = .ok [[(1, [3], [])], [(2, [], []), (3, [2], [1])]] :=
  ⟨_, by decide +kernel, rfl, by decide +kernel⟩

/-- **C40** fails. If the collection with the parent is not read (`setReadCollectionNames`), the null pointer is used. The event
itself is fine. -/
theorem C40_fails_for_unread_parent : ∃ cols, Storable ieee false [] [] {} cols ∧
    storeLoadEvent ieee false [] [str "B"] ([], []) 0 1 {} cols = .error .ub :=
  ⟨[(str "A", mcCol [(11, [])]), (str "B", mcCol [(12, [11])])], by decide +kernel, by decide +kernel⟩

/-- **C43** fails. A track with two states at the same location can be written but not read: the file is not usable from there on. -/
theorem C43_fails_for_two_states : ∃ cols, (∃ d, writeEvent ieee [] ([], []) 0 {} cols = .ok d) ∧ storeLoadEvent ieee false [] [] ([], []) 0 1 {} cols = .error .ioFailure ∧
    cols = [(str "A", { type := str "Track", elems := [⟨5, some (.track { states := [{ location := 1 }, { location := 1 }] })⟩] })] := by
  refine ⟨_, ?_, ?_, rfl⟩
  · have h : (match writeEvent ieee [] ([], []) 0 {} [(str "A", { type := str "Track", elems := [⟨5, some (.track { states := [{ location := 1 }, { location := 1 }] })⟩] })] with
        | .ok _ => true | .error _ => false) = true := by decide +kernel
    split at h
    · rename_i d hd; exact ⟨d, hd⟩
    · cases h
  · decide +kernel

/-- **C43** fails. A cluster with more hits than contributions (`hitContributions()` is filled by the user): reading past the end of the vector when
writing. -/
theorem C43_fails_for_missing_weight : ∃ c : Cluster, c.hits.length = 1 ∧ c.weights = [] ∧
    writeEvent ieee [] ([], []) 0 {} [(str "A", { type := str "Cluster", flag := 0x80000000, elems := [⟨5, some (.cluster c)⟩] })] = .error .ub :=
  ⟨{ hits := [5] }, rfl, rfl, by decide +kernel⟩

/-- The numbers of the generic objects of the loaded collections. -/
def intsOf (r : Except Err (EventHeader × List (Str × Collection))) : Except Err (List (List (List W32))) :=
  r.map fun x => x.2.map fun c => c.2.elems.map fun e => match e.obj with
    | some (.generic o) => o.ints
    | _ => []

/-- A collection of generic objects. -/
def genericCol (flag : W32) (l : List Generic) : Collection := { type := str "LCGenericObject", flag, elems := l.map fun o => ⟨5 + o.ints.length, some (.generic o)⟩ }

/-- **C44** fails. The first object of fixed size has less data than the second: the rest of the second is lost. -/
theorem C44_fails_for_different_sizes : 
    intsOf (storeLoadEvent ieee false [] [] ([], []) 0 1 {} [(str "A", genericCol 0 [{ ints := [1], fixed := true }, { ints := [1, 2], fixed := true }])]) = .ok [[[1], [1]]] ∧
    writeEvent ieee [] ([], []) 0 {} [(str "A", genericCol 0 [{ ints := [1, 2], fixed := true }, { ints := [1], fixed := true }])] = .error .ub := by decide +kernel

/-- **C44** fails. The flag word says that objects are of fixed size (as it does for a collection that has been read or written), and one
has been added that is not: it is lost. -/
theorem C44_fails_for_stale_flag :
    intsOf (storeLoadEvent ieee false [] [] ([], []) 0 1 {} [(str "A", genericCol 0x80000000 [{ ints := [1, 3] }])]) = .ok [[]] := by decide +kernel

/-- A collection of a type that LCIO does not know cannot be written: the handler is a null pointer. -/
theorem C44_fails_for_unknown_type : writeEvent ieee [] ([], []) 0 {} [(str "A", { type := str "MyType" })] = .error .ub := by decide +kernel

end Props
