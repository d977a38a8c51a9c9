import Verif.Lcio.FirstAccess
import Verif.Props.Append
/-
C27: the positions in the file record.
-/
namespace Props
open Sio Spec Lcio

/-- **C27** for the positions in the file record. The file is a sequence of records; at the first of the positions is the first random access record, at the other one
the last one before the file record, which is the last record of the file. -/
theorem C27_locations (cfg : RConfig) (hcodec : Lossless cfg.codec) (ss : List Session) (hs : SessionsOk cfg.codec cfg.std ss) (name : Str) :
    ∃ bytes r a recs n m, fileAfter cfg.codec cfg.std ss = .ok (some bytes) ∧ Reader.openFiles cfg true [(name, bytes)] = (.ok (), r) ∧ r.ra.file = some a ∧
      bytes = fileOf recs ∧ n ≤ m ∧ m + 2 = recs.length ∧
      recs[n]?.map (·.name) = some accessName ∧ (∀ i : Nat, i < n → recs[i]?.map (·.name) ≠ some accessName) ∧ a.prevLoc.toInt = (fileOf (recs.take n)).length ∧
      recs[m]?.map (·.name) = some accessName ∧ a.nextLoc.toInt = (fileOf (recs.take m)).length := by
  obtain ⟨cs, last, f, bytes, h1, h2, h3⟩ := fileAfter_content cfg.codec hcodec cfg.std ss hs
  obtain ⟨p1, p2⟩ := chunks_puts h1
  cases h3 with
  | some h a ha r hr =>
    subst ha
    have hsz := history_size cfg.codec cfg.std cs last (some a) h (by rw [p1]; exact hs.count)
    obtain ⟨m', e1, e2, e3⟩ := createEventMap_eq cfg.codec h (by omega) r hr {} rfl rfl
    rcases history_prev h (by omega) with ⟨-, -, h'⟩ | ⟨c, cs', l, a', m, k, rfl, f0, rfl, h', f1, f2, f3, f4, -⟩
    · cases h'
    cases h'
    rcases history_next cfg.codec cfg.std _ _ _ h (by omega) with ⟨h', -⟩ | ⟨pre, r', l', a', g1, h', h'', g2, g3, g4, -⟩
    · cases h'
    cases h'
    cases h''
    have hrecs : recsOf (c :: cs') = (c.groups.flatten ++ [c.ix]) ++ c.acc :: recsOf cs' := by simp [recsOf, Chunk.recs]
    have hle : (c.groups.flatten ++ [c.ix]).length ≤ pre.length := by
      have := congrArg List.length (hrecs.symm.trans g1)
      simp only [List.length_append, List.length_cons, List.length_nil] at this ⊢
      omega
    have htake : (recsOf (c :: cs') ++ [r]).take (c.groups.flatten ++ [c.ix]).length = c.groups.flatten ++ [c.ix] := by
      rw [hrecs, List.append_assoc, List.take_left]
    have htake' : (recsOf (c :: cs') ++ [r]).take pre.length = pre := by
      rw [g1, List.append_assoc, List.take_left]
    have hsize : (fileOf pre).length < Lcio.sizeOf (c :: cs') := by
      unfold Lcio.sizeOf; rw [g1, fileOf_append, List.length_append]
      have := wire_pos r'
      simp [fileOf_cons, fileOf_nil]; omega
    refine ⟨_, { files := [(name, fileOf (recsOf (c :: cs')) ++ r.wire)], stream := { bytes := fileOf (recsOf (c :: cs')) ++ r.wire }, readMap := true, ra := m' }, a,
      recsOf (c :: cs') ++ [r], (c.groups.flatten ++ [c.ix]).length, pre.length, h2, ?_, e3, ?_, hle, ?_, ?_, ?_, ?_, ?_, ?_⟩
    · unfold Reader.openFiles Reader.openFile
      simp only [if_true]
      rw [e1]
    · simp [fileOf_append, fileOf_cons, fileOf_nil]
    · rw [g1]; simp
    · rw [hrecs, List.append_assoc, List.getElem?_append_right (Nat.le_refl _)]
      simp [f0.acc.named]
    · intro i hi hn
      rw [hrecs, List.append_assoc, List.getElem?_append_left hi, List.getElem?_eq_getElem hi] at hn
      exact chunk_names f0 _ (List.getElem_mem hi) (Option.some.inj hn)
    · rw [htake, f1, toInt_ofNat64 _ (by omega)]
      unfold Chunk.loc Chunk.ixLoc
      simp [fileOf_append, fileOf_cons, fileOf_nil]
    · rw [g1, List.append_assoc, List.getElem?_append_right (Nat.le_refl _)]
      simp [g2.named]
    · rw [htake', g4, g3, toInt_ofNat64 _ (by omega)]

/-- Two sessions: the file has two random access records and the file record. -/
example : ∃ bytes r a recs n m, fileAfter sampleCfg.codec sampleCfg.std sampleSessions = .ok (some bytes) ∧ Reader.openFiles sampleCfg true [(str "f", bytes)] = (.ok (), r) ∧
    r.ra.file = some a ∧ bytes = fileOf recs ∧ n ≤ m ∧ m + 2 = recs.length ∧
    recs[n]?.map (·.name) = some accessName ∧ (∀ i : Nat, i < n → recs[i]?.map (·.name) ≠ some accessName) ∧ a.prevLoc.toInt = (fileOf (recs.take n)).length ∧
    recs[m]?.map (·.name) = some accessName ∧ a.nextLoc.toInt = (fileOf (recs.take m)).length :=
  C27_locations sampleCfg idCodec_lossless sampleSessions sampleSessions_ok (str "f")

end Props
