import Verif.Spec.FortranData
import Verif.Util.FortranLemmas
import Verif.Lcio.SetterLemmas
import Verif.Lcio.FloatLemmas
/-
C109: what a Fortran program stores in events is what it gets.
-/
namespace Props
open Sio Lcio Fort Spec

/-- Storing a whole vector at the beginning of an array. -/
theorem putAll_front {α : Type} (v a : List α) (h : v.length ≤ a.length) : ∃ a', putAll a 0 v = .ok a' ∧ StoredAtFront v a v.length a' := by
  refine ⟨_, putAll_ok v a 0 (by omega), ?_, ?_, ?_⟩
  · simp; omega
  · intro i hi
    simp only [List.take_zero, List.nil_append]
    rw [List.getElem?_append_left hi]
  · intro i hi
    simp only [List.take_zero, List.nil_append, Nat.zero_add]
    rw [List.getElem?_append_right hi, List.getElem?_drop, Nat.add_sub_cancel' hi]

/-! ## Headers of events -/

/-- **C109.** The header of an event: the numbers of run and event, the time stamp and the name of the detector that a program sets are the ones it gets, in any character array with room for the name. -/
theorem C109_event_headers_partial (std : Std Pid) (e : EventHeader) (irun ievent timestamp : W32) (name : Str) (hz : (0 : Byte) ∉ name)
    (buf : List Byte) (hb : name.length < buf.length) :
    ∃ e' buf', setEventHeader std false e irun ievent timestamp name = .ok e' ∧ e'.params = e.params ∧ e'.cols = e.cols ∧
      getEventHeader e' buf = .ok (irun, ievent, timestamp, buf') ∧ buf'.length = buf.length ∧ stringAt buf' 0 = .ok name := by
  refine ⟨{ e with run := irun, evt := ievent, time := timestamp.signExtend 64, det := cut name }, name ++ 0 :: buf.drop (name.length + 1), rfl, rfl, rfl, ?_, ?_, ?_⟩
  · have h1 := strcpy_ok buf 0 name hz (by omega)
    simp only [getEventHeader]
    rw [cut_of_not_mem _ hz, h1]
    simp only [bind, Except.bind, pure, Except.pure, List.take_zero, List.nil_append, List.append_assoc, List.singleton_append, Nat.zero_add]
    rw [show (timestamp.signExtend 64).setWidth 32 = timestamp from ?_]
    apply BitVec.eq_of_getLsbD_eq
    intro i hi
    rw [BitVec.getLsbD_setWidth, BitVec.getLsbD_signExtend]
    simp [hi, Nat.lt_trans hi (by decide : 32 < 64)]
  · simp; omega
  · unfold stringAt
    rw [List.drop_zero, if_pos (by simp), cut_nul _ hz]

example : ∃ e' buf', setEventHeader ieee false { evt := 7 } 4711 1 0xfffffff6 (str "ILD") = .ok e' ∧ e'.params = {} ∧ e'.cols = [] ∧
    getEventHeader e' (str "......") = .ok (4711, 1, 0xfffffff6, buf') ∧ buf'.length = 6 ∧ stringAt buf' 0 = .ok (str "ILD") :=
  C109_event_headers_partial ieee { evt := 7 } 4711 1 0xfffffff6 (str "ILD") (by decide) (str "......") (by decide)

/-- **C109 fails** for time stamps in nanoseconds, as `LCTime` makes them: all of them from 1970-01-01 00:00:05 on are cut, and there are always other times for which a program gets the same number. -/
theorem C109_fails_time_stamps (e : EventHeader) (buf : List Byte) :
    getEventHeader e buf = getEventHeader { e with time := e.time + 0x100000000 } buf ∧ e.time ≠ e.time + 0x100000000 ∧
    ∀ r n t b, getEventHeader e buf = .ok (r, n, t, b) → t.toNat = e.time.toNat % 2 ^ 32 := by
  refine ⟨?_, ?_, ?_⟩
  · unfold getEventHeader
    have h : (e.time + 0x100000000).setWidth 32 = e.time.setWidth 32 := by
      apply BitVec.eq_of_toNat_eq
      rw [BitVec.toNat_setWidth, BitVec.toNat_setWidth, BitVec.toNat_add]
      simp
    simp only [h]
  · intro h
    have := congrArg BitVec.toNat h
    rw [BitVec.toNat_add] at this
    simp at this
    have := e.time.isLt
    omega
  · intro r n t b h
    unfold getEventHeader at h
    cases hs : strcpy buf 0 e.det with
    | error x => rw [hs] at h; cases h
    | ok d =>
      rw [hs] at h
      cases h
      rw [BitVec.toNat_setWidth]

/-! ## Simulated tracker hits -/

/-- **C109.** Simulated tracker hits: the hits that a program adds to a collection, whatever the collection holds already, are the ones it gets, in this order, counted from one. The three numbers of the position are stored in its array, nothing else of the
array is changed. -/
theorem C109_tracker_hits (col : List SimTrackerHit) (xs : List GivenTrackerHit) (h3 : ∀ x ∈ xs, x.pos.length = 3) :
    ∃ col', addTrackerHits col xs = .ok col' ∧ col'.length = col.length + xs.length ∧ col'.take col.length = col ∧
      ∀ (k : Nat) (x : GivenTrackerHit), xs[k]? = some x → ∀ pos : List W64, 3 ≤ pos.length →
        ∃ pos', getSimTrackerHit col' (col.length + k + 1) pos = .ok (x.cellID, pos', x.dEdx, x.time, x.particle) ∧ StoredAtFront x.pos pos 3 pos' := by
  have key : ∀ (xs : List GivenTrackerHit) (col : List SimTrackerHit), (∀ x ∈ xs, x.pos.length = 3) → addTrackerHits col xs =
      .ok (col ++ xs.map fun x => { cellID0 := x.cellID, pos := x.pos, eDep := x.dEdx, time := x.time, particle := x.particle }) := by
    intro xs
    induction xs with
    | nil => intro col _; simp [addTrackerHits]
    | cons x xs ih =>
      intro col h
      have hx := h x (by simp)
      have h1 : addSimTrackerHit col x.cellID x.pos x.dEdx x.time x.particle =
          .ok (col ++ [{ cellID0 := x.cellID, pos := x.pos, eDep := x.dEdx, time := x.time, particle := x.particle }]) := by
        simp only [addSimTrackerHit, SimTrackerHit.change, copyArray, hx, bind, Except.bind, pure, Except.pure]
        rw [List.take_of_length_le (by omega)]
        rfl
      simp only [addTrackerHits, h1]
      rw [ih _ (fun y hy => h y (by simp [hy]))]
      simp
  refine ⟨_, key xs col h3, by simp, by simp, ?_⟩
  intro k x hx pos hp
  have hx3 := h3 x (List.mem_of_getElem? hx)
  obtain ⟨pos', g1, g2⟩ := putAll_front x.pos pos (by omega)
  refine ⟨pos', ?_, hx3 ▸ g2⟩
  have hi : (Access.simTrackerHits.get (col ++ xs.map fun x => ({ cellID0 := x.cellID, pos := x.pos, eDep := x.dEdx, time := x.time, particle := x.particle } : SimTrackerHit)) ((col.length : Int) + k + 1)) =
      .ok { cellID0 := x.cellID, pos := x.pos, eDep := x.dEdx, time := x.time, particle := x.particle } := by
    simp only [Access.get, index]
    rw [if_neg (by omega), show ((col.length : Int) + k + 1 - 1).toNat = col.length + k by omega, List.getElem?_append_right (by omega)]
    simp [hx]
  simp only [getSimTrackerHit, hi, bind, Except.bind, g1, pure, Except.pure]

example : ∃ col', addTrackerHits [] [⟨5, [1, 2, 3], 6, 7, 8⟩, ⟨9, [4, 5, 6], 1, 2, 0⟩] = .ok col' ∧
    getSimTrackerHit col' 2 [0, 0, 0, 77] = .ok (9, [4, 5, 6, 77], 1, 2, 0) ∧ getSimTrackerHit col' 3 [0, 0, 0, 77] = .error .ub := ⟨_, rfl, by decide, by decide⟩

/-! ## Simulated calorimeter hits -/

/-- A hit after further contributions. -/
def withContributions (h : SimCalHit) (cs : List GivenContribution) : SimCalHit :=
  { h with energy := cs.foldl (fun e c => ieeeAdd e c.energy) h.energy,
           conts := h.conts ++ cs.map fun c => { particle := c.particle, energy := c.energy, time := c.time, pdg := c.pdg } }

theorem withContributions_cons (h : SimCalHit) (c : GivenContribution) (cs : List GivenContribution) :
    withContributions (h.addLong ieeeAdd c.particle c.energy c.time 0 c.pdg none) cs = withContributions h (c :: cs) := by
  simp [withContributions, SimCalHit.addLong]

theorem withContributions_nil (h : SimCalHit) : withContributions h [] = h := by simp [withContributions]

/-- All hits after some calls. -/
theorem caloAfter_spec (cs : List CaloCall) : ∀ col : List SimCalHit, Sensible col.length cs →
    ∃ col', caloAfter col cs = .ok col' ∧ col'.length = col.length + (hitsGiven cs).length ∧
      (∀ (k : Nat) h, col[k]? = some h → col'[k]? = some (withContributions h (contributionsGiven k cs))) ∧
      (∀ (k : Nat) x, (hitsGiven cs)[k]? = some x → x.pos.length = 3 ∧ col'[col.length + k]? =
        some (withContributions { cellID0 := x.cellID0, cellID1 := x.cellID1, energy := x.energy, position := x.pos } (contributionsGiven (col.length + k) cs))) := by
  induction cs with
  | nil =>
    intro col _
    refine ⟨col, rfl, by simp [hitsGiven], fun k h hk => ?_, fun k x hx => by simp [hitsGiven] at hx⟩
    rw [show contributionsGiven k [] = [] from rfl, withContributions_nil]
    exact hk
  | cons c cs ih =>
    intro col hs
    cases c with
    | hit x =>
      obtain ⟨hx, hs⟩ := hs
      have h1 : addSimCaloHit col x.cellID0 x.cellID1 x.energy x.pos = .ok (col ++ [{ cellID0 := x.cellID0, cellID1 := x.cellID1, energy := x.energy, position := x.pos }]) := by
        simp only [addSimCaloHit, SimCalHit.change, copyArray, hx, bind, Except.bind, pure, Except.pure]
        rw [List.take_of_length_le (by omega)]
        rfl
      obtain ⟨col', e1, e2, e3, e4⟩ := ih (col ++ [{ cellID0 := x.cellID0, cellID1 := x.cellID1, energy := x.energy, position := x.pos }]) (by simpa using hs)
      refine ⟨col', by simp only [caloAfter, h1]; exact e1, by rw [e2]; simp [hitsGiven]; omega, fun k h hk => ?_, fun k y hy => ?_⟩
      · exact e3 k h (by rw [List.getElem?_append_left (List.getElem?_eq_some_iff.1 hk).1]; exact hk)
      · cases k with
        | zero =>
          simp only [hitsGiven, List.getElem?_cons_zero, Option.some.injEq] at hy
          subst hy
          exact ⟨hx, e3 col.length _ (by simp)⟩
        | succ k =>
          simp only [hitsGiven, List.getElem?_cons_succ] at hy
          have := e4 k y hy
          simp only [List.length_append, List.length_cons, List.length_nil, Nat.zero_add] at this
          rw [show col.length + (k + 1) = col.length + 1 + k by omega]
          exact this
    | contribution j c =>
      obtain ⟨hj, hs⟩ := hs
      obtain ⟨h0, hh0⟩ : ∃ h0, col[j]? = some h0 := ⟨_, List.getElem?_eq_getElem hj⟩
      have h1 : addContribution col j c.particle c.energy c.time c.pdg = .ok (col.set j (h0.addLong ieeeAdd c.particle c.energy c.time 0 c.pdg none)) := by
        simp only [addContribution, hh0]
        rfl
      obtain ⟨col', e1, e2, e3, e4⟩ := ih (col.set j (h0.addLong ieeeAdd c.particle c.energy c.time 0 c.pdg none)) (by simpa using hs)
      refine ⟨col', by simp only [caloAfter, h1]; exact e1, by rw [e2]; simp [hitsGiven], fun k h hk => ?_, fun k y hy => ?_⟩
      · by_cases hjk : j = k
        · subst hjk
          have := e3 j _ (List.getElem?_set_self hj)
          rw [this, show contributionsGiven j (.contribution j c :: cs) = c :: contributionsGiven j cs by simp [contributionsGiven]]
          rw [hh0] at hk
          cases hk
          rw [withContributions_cons]
        · have := e3 k h (by rw [List.getElem?_set_ne hjk]; exact hk)
          rw [this, show contributionsGiven k (.contribution j c :: cs) = contributionsGiven k cs by simp [contributionsGiven, hjk]]
      · have := e4 k y hy
        rw [List.length_set] at this
        rw [show contributionsGiven (col.length + k) (.contribution j c :: cs) = contributionsGiven (col.length + k) cs by
          simp only [contributionsGiven]; rw [if_neg (by omega)]]
        exact this

/-- **C109.** Simulated calorimeter hits: a program that makes hits and adds contributions to them, in any order, gets the hits in the order it made them, counted from one, with their cell ids and positions; for each hit it gets the contributions that it
added to it, in this order, with their particles, energies, times and codes. The energy of a hit is what was given for it plus the energies of its contributions (added one by one as `float`). -/
theorem C109_calorimeter_hits_partial (cs : List CaloCall) (hs : Sensible 0 cs) :
    ∃ col, caloAfter [] cs = .ok col ∧ col.length = (hitsGiven cs).length ∧
      ∀ (k : Nat) (x : GivenCaloHit), (hitsGiven cs)[k]? = some x →
        (∀ pos : List W32, 3 ≤ pos.length → ∃ pos', StoredAtFront x.pos pos 3 pos' ∧
          getSimCaloHit col (k + 1) pos = .ok (x.cellID0, x.cellID1, (contributionsGiven k cs).foldl (fun e c => ieeeAdd e c.energy) x.energy, pos')) ∧
        ∃ h, col[k]? = some h ∧ h.conts.length = (contributionsGiven k cs).length ∧
          ∀ (j : Nat) (c : GivenContribution), (contributionsGiven k cs)[j]? = some c → getContribution h (j + 1) = .ok (c.particle, c.energy, c.time, c.pdg) := by
  obtain ⟨col, e1, e2, -, e4⟩ := caloAfter_spec cs [] hs
  refine ⟨col, e1, by simpa using e2, fun k x hx => ?_⟩
  obtain ⟨hx3, hk⟩ := e4 k x hx
  simp only [List.length_nil, Nat.zero_add] at hk
  refine ⟨fun pos hp => ?_, _, hk, by simp [withContributions], fun j c hj => ?_⟩
  · obtain ⟨pos', g1, g2⟩ := putAll_front x.pos pos (by omega)
    refine ⟨pos', hx3 ▸ g2, ?_⟩
    have hi : col[((k : Int) + 1 - 1).toNat]? = some (withContributions { cellID0 := x.cellID0, cellID1 := x.cellID1, energy := x.energy, position := x.pos } (contributionsGiven k cs)) := by
      rw [show ((k : Int) + 1 - 1).toNat = k by omega]; exact hk
    simp only [getSimCaloHit, Access.get, index]
    rw [if_neg (by omega), if_neg (by omega), hi]
    simp only [withContributions, bind, Except.bind, g1, pure, Except.pure]
  · have hi : (withContributions { cellID0 := x.cellID0, cellID1 := x.cellID1, energy := x.energy, position := x.pos } (contributionsGiven k cs)).conts[((j : Int) + 1 - 1).toNat]? =
        some { particle := c.particle, energy := c.energy, time := c.time, pdg := c.pdg } := by
      rw [show ((j : Int) + 1 - 1).toNat = j by omega]
      simp [withContributions, hj]
    simp only [getContribution, Access.get, indexAt]
    rw [if_neg (by omega), if_neg (by omega), hi]
    rfl

/-- Two hits; the second one gets two contributions, the first one is used again after that. -/
def sampleCalo : List CaloCall := [.hit ⟨1, 2, 0x3f800000, [1, 2, 3]⟩, .hit ⟨3, 4, 0, [4, 5, 6]⟩, .contribution 1 ⟨70, 0x3f800000, 5, 11⟩, .contribution 1 ⟨70, 0x3f800000, 6, 22⟩, .contribution 0 ⟨71, 0x3f800000, 0, 0⟩]

example : Sensible 0 sampleCalo := by simp [Sensible, sampleCalo]

/-- **C109 fails** for the energy of hits: a program that gives the energy of a hit and then the contributions that make it up, as in simjob.F, gets another energy: here 1 is given, with one contribution of 1, and 2 is got. -/
theorem C109_fails_energies : ∃ (cs : List CaloCall) (col : List SimCalHit), Sensible 0 cs ∧ caloAfter [] cs = .ok col ∧
    (hitsGiven cs)[0]? = some ⟨7, 0, 0x3f800000, [0, 0, 0]⟩ ∧ (contributionsGiven 0 cs).map (·.energy) = [0x3f800000] ∧
    getSimCaloHit col 1 [9, 9, 9] = .ok (7, 0, 0x40000000, [0, 0, 0]) :=
  ⟨[.hit ⟨7, 0, 0x3f800000, [0, 0, 0]⟩, .contribution 0 ⟨1, 0x3f800000, 0, 0⟩], _, by simp [Sensible], rfl, rfl, rfl, by decide +kernel⟩

/-! ## Simulated particles -/

theorem lastGiven_cons {α : Type} (f : McpCall → Option α) (c : McpCall) (cs : List McpCall) (d : α) :
    (lastGiven f (c :: cs)).getD d = (lastGiven f cs).getD ((f c).getD d) := by
  unfold lastGiven
  cases h : f c with
  | none => rw [List.filterMap_cons_none h]; rfl
  | some x => rw [List.filterMap_cons_some h, List.getLast?_cons]; cases (List.filterMap f cs).getLast? <;> rfl

/-- **C109.** Simulated particles: after any calls of the functions that set something of a particle, a program gets the codes, the statuses, the vertex, the momentum, the mass and the charge that it set last, and the number of daughters. Numbers of single
precision come back as they were if conversion to double precision and back gives the same number (`narrow_widen`: all but signalling NaNs). Missing: a program that sets the endpoint also changes the simulator status. -/
theorem C109_particles_partial (std : Std Pid) (o : MCParticle) (hv : o.vertex.length = 3) (hp : o.p.length = 3) (cs : List McpCall) (hf : ∀ c ∈ cs, FullArrays c)
    (he : ∀ v, .endpoint v ∉ cs) (hm : ∀ m, .mass m ∈ cs → std.narrow (std.widen m) = m) (hq : ∀ v, .momentum v ∈ cs → v.map (fun x => std.narrow (std.widen x)) = v)
    (vertex : List W64) (momentum : List W32) (hv' : 3 ≤ vertex.length) (hp' : 3 ≤ momentum.length) :
    ∃ o' d, particleAfter std o cs = .ok o' ∧ getParticleData std o' vertex momentum = .ok d ∧
      d.pdg = (lastGiven (fun | .pdg v => some v | _ => none) cs).getD o.pdg ∧
      d.genStatus = (lastGiven (fun | .generatorStatus v => some v | _ => none) cs).getD o.genStatus ∧
      d.simStatus = (lastGiven (fun | .simulatorStatus v => some v | _ => none) cs).getD o.simStatus ∧
      StoredAtFront ((lastGiven (fun | .vertex v => some v | _ => none) cs).getD o.vertex) vertex 3 d.vertex ∧
      StoredAtFront ((lastGiven (fun | .momentum v => some v | _ => none) cs).getD (o.p.map std.narrow)) momentum 3 d.momentum ∧
      d.mass = (lastGiven (fun | .mass v => some v | _ => none) cs).getD (std.narrow o.mass) ∧
      d.charge = (lastGiven (fun | .charge v => some v | _ => none) cs).getD o.charge ∧ d.nDaughters = o.daughters.length := by
  induction cs generalizing o with
  | nil =>
    obtain ⟨v', g1, g2⟩ := putAll_front o.vertex vertex (by omega)
    obtain ⟨p', g3, g4⟩ := putAll_front (o.p.map std.narrow) momentum (by simpa [hp] using hp')
    rw [hv] at g2
    rw [List.length_map, hp] at g4
    refine ⟨o, { pdg := o.pdg, genStatus := o.genStatus, simStatus := o.simStatus, vertex := v', momentum := p', mass := std.narrow o.mass, charge := o.charge, nDaughters := o.daughters.length }, rfl, ?_, rfl, rfl, rfl, g2, g4, rfl, rfl, rfl⟩
    simp only [getParticleData, g1, g3, bind, Except.bind, pure, Except.pure]
  | cons c cs ih =>
    have hfc := hf c (by simp)
    have ih' := fun o1 h1 h2 => ih o1 h1 h2 (fun c hc => hf c (by simp [hc])) (fun v hv => he v (by simp [hv])) (fun m h => hm m (by simp [h])) (fun v h => hq v (by simp [h]))
    simp only [lastGiven_cons]
    cases c with
    | pdg v => exact ih' { o with pdg := v } hv hp
    | generatorStatus v => exact ih' { o with genStatus := v } hv hp
    | simulatorStatus v => exact ih' { o with simStatus := v } hv hp
    | vertex v =>
      have h1 : o.change std false (.setVertex v) = .ok { o with vertex := v } := by
        simp only [FullArrays] at hfc
        simp [MCParticle.change, copyArray, hfc, bind, Except.bind, pure, Except.pure, List.take_of_length_le (Nat.le_of_eq hfc)]
      simp only [particleAfter, McpCall.setter, h1]
      exact ih' { o with vertex := v } hfc hp
    | endpoint v => exact absurd (List.mem_cons_self) (he v)
    | momentum v =>
      have h1 : o.change std false (.setMomentumFloat v) = .ok { o with p := v.map std.widen } := by
        simp only [FullArrays] at hfc
        simp [MCParticle.change, copyArray, hfc, bind, Except.bind, pure, Except.pure, List.take_of_length_le (Nat.le_of_eq hfc)]
      simp only [particleAfter, McpCall.setter, h1]
      have := ih' { o with p := v.map std.widen } hv (by rw [List.length_map]; exact hfc)
      simp only [List.map_map] at this
      have e := hq v (by simp)
      rw [show List.map (std.narrow ∘ std.widen) v = v from e] at this
      exact this
    | mass v =>
      have := ih' { o with mass := std.widen v } hv hp
      simp only [hm v (by simp)] at this
      exact this
    | charge v => exact ih' { o with charge := v } hv hp
    | spin v =>
      have h1 : o.change std false (.setSpin v) = .ok { o with spin := v } := by
        simp only [FullArrays] at hfc
        simp [MCParticle.change, copyArray, hfc, bind, Except.bind, pure, Except.pure, List.take_of_length_le (Nat.le_of_eq hfc)]
      simp only [particleAfter, McpCall.setter, h1]
      exact ih' { o with spin := v } hv hp
    | colorFlow v =>
      have h1 : o.change std false (.setColorFlow v) = .ok { o with colorFlow := v } := by
        simp only [FullArrays] at hfc
        simp [MCParticle.change, copyArray, hfc, bind, Except.bind, pure, Except.pure, List.take_of_length_le (Nat.le_of_eq hfc)]
      simp only [particleAfter, McpCall.setter, h1]
      exact ih' { o with colorFlow := v } hv hp

/-- With the conversions of IEEE 754. -/
example : ∃ o' d, particleAfter ieee {} [.pdg 11, .momentum [0x3f800000, 0x40000000, 0], .mass 0x3f000000, .pdg 13, .spin [1, 2, 3], .vertex [1, 2, 3]] = .ok o' ∧
    getParticleData ieee o' [7, 7, 7, 7] [8, 8, 8] = .ok d ∧ d.pdg = 13 ∧ d.momentum = [0x3f800000, 0x40000000, 0] ∧ d.mass = 0x3f000000 ∧ d.vertex = [1, 2, 3, 7] := by
  refine ⟨_, _, rfl, rfl, rfl, ?_, ?_, rfl⟩ <;> decide +kernel

/-- **C109 fails** for the simulator status: a program that sets the endpoint of a particle afterwards gets another simulator status. -/
theorem C109_fails_status (std : Std Pid) (o : MCParticle) (s : W32) (v : List W64) (hv : v.length = 3) (hs : s.getLsbD 31 = false) :
    ∃ o', particleAfter std o [.simulatorStatus s, .endpoint v] = .ok o' ∧ o'.simStatus ≠ s := by
  have h1 : setBitsetBit s 31 true = .ok (wordWith s 31 true) := setBitsetBit_ok (by decide) s true
  refine ⟨{ o with simStatus := wordWith s 31 true, endpoint := v }, ?_, ?_⟩
  · simp only [particleAfter, McpCall.setter, MCParticle.change, Bool.false_eq_true, if_false]
    rw [h1]
    simp [copyArray, hv, bind, Except.bind, pure, Except.pure, List.take_of_length_le (Nat.le_of_eq hv)]
  · intro h
    simp only at h
    have := congrArg (·.getLsbD 31) h
    simp only [hs] at this
    rw [wordWith_bit _ _ _ _ (by decide)] at this; simp at this

/-- **C109 fails** for momenta that other programs stored in double precision: a Fortran program that gets the data of a particle in one call gets them rounded. -/
theorem C109_fails_momenta : ∃ (o o' : MCParticle) (d : ParticleData), o.p ≠ o'.p ∧ getParticleData ieee o [0, 0, 0] [0, 0, 0] = .ok d ∧ getParticleData ieee o' [0, 0, 0] [0, 0, 0] = .ok d :=
  ⟨{ p := [0x3ff0000000000000, 0, 0] }, { p := [0x3ff0000000000001, 0, 0] }, { pdg := 0, genStatus := 0, simStatus := 0, vertex := [0, 0, 0], momentum := [0x3f800000, 0, 0], mass := 0, charge := 0, nDaughters := 0 },
    by decide, by decide +kernel, by decide +kernel⟩

end Props
