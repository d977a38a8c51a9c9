import Verif.Spec.Crash
import Verif.Lcio.CursorLemmas
/-
Reading files that are cut, or that end in something else: lemmas.
-/
namespace Lcio
open Sio Spec

/-- The errors of reading a record that is cut. -/
def CutErr (e : Err) : Prop := e = .eof ∨ e = .noMarker ∨ e = .badState ∨ e = .ioFailure

theorem contained_size (k : Nat) (b : List Rec) : (contained k b).length ≤ ((fileOf b).take k).length := by
  induction b generalizing k with
  | nil => simp [contained]
  | cons r b ih =>
    unfold contained
    have h1 := wire_length r
    have h2 := header_length r
    have h3 : 24 ≤ headerLen r.name := by unfold headerLen; omega
    split
    · have := ih (k - r.wire.length)
      simp only [List.length_cons, List.length_take, fileOf_cons, List.length_append] at this ⊢
      omega
    · simp

/-- What a scan leaves is the end of the list. -/
theorem scan_rest {σ : Type} (valid : σ → RecordInfo → σ × Bool) (func : σ → RecordInfo → List Byte → σ × Except Err Bool) (c rem : List Rec) (st : σ) (p : Nat)
    (h : (scan valid func st p c).2.2 = some rem) : ∃ mid, c = mid ++ rem := by
  induction c generalizing st p with
  | nil => simp [scan] at h
  | cons r c ih =>
    rw [scan_cons] at h
    cases hv : valid st (r.info p) with
    | mk st1 b =>
    rw [hv] at h
    cases b with
    | false => obtain ⟨mid, hm⟩ := ih _ _ h; exact ⟨r :: mid, by rw [hm]; rfl⟩
    | true =>
      simp only at h
      cases hf : func st1 (r.info p) r.data with
      | mk st2 res =>
      rw [hf] at h
      cases res with
      | error e => simp only [Option.some.injEq] at h; exact ⟨[r], by rw [h]; rfl⟩
      | ok c' =>
        cases c' with
        | false => simp only [Option.some.injEq] at h; exact ⟨[r], by rw [h]; rfl⟩
        | true => obtain ⟨mid, hm⟩ := ih _ _ h; exact ⟨r :: mid, by rw [hm]; rfl⟩

/-- Reading records of a file of which only the first `K` bytes are there. -/
theorem readRecords_cut {σ : Type} (v : RecordInfo → Bool) (func : σ → RecordInfo → List Byte → σ × Except Err Bool)
    (b : List Rec) (hb : ∀ r ∈ b, r.Ok) (a : List Rec) (K : Nat) (buf : List Byte) (st : σ) (p : Nat) (hp : p = (fileOf a).length)
    (fuel : Nat) (hf : (contained (K - p) b).length + 1 < fuel) :
    (∀ rem mid, (scan (fun st i => (st, v i)) func st p (contained (K - p) b)).2.2 = some rem → contained (K - p) b = mid ++ rem →
      ∃ buf', readRecords (fun st i => (st, v i)) func fuel st (ready ((fileOf (a ++ b)).take K) p) buf =
        ((scan (fun st i => (st, v i)) func st p (contained (K - p) b)).1, (scan (fun st i => (st, v i)) func st p (contained (K - p) b)).2.1,
          ready ((fileOf (a ++ b)).take K) (p + (fileOf mid).length), buf')) ∧
    ((scan (fun st i => (st, v i)) func st p (contained (K - p) b)).2.2 = none →
      ∃ e s' buf', readRecords (fun st i => (st, v i)) func fuel st (ready ((fileOf (a ++ b)).take K) p) buf =
        ((scan (fun st i => (st, v i)) func st p (contained (K - p) b)).1, .error e, s', buf') ∧ CutErr e) := by
  induction b generalizing a buf st p fuel with
  | nil =>
    refine ⟨by intro rem mid h; simp [contained, scan] at h, fun _ => ?_⟩
    obtain ⟨fuel, rfl⟩ : ∃ f, fuel = f + 1 := ⟨fuel - 1, by omega⟩
    obtain ⟨b', h⟩ := readRecordInfo_end ((fileOf (a ++ [])).take K) buf p (by simp [hp]; omega)
    unfold readRecords
    rw [h]
    exact ⟨.eof, _, _, rfl, .inl rfl⟩
  | cons r b ih =>
    obtain ⟨fuel, rfl⟩ : ∃ f, fuel = f + 1 := ⟨fuel - 1, by omega⟩
    have hr1 := hb r (by simp)
    have hlen := wire_length r
    have hl := header_length r
    have h24 : 24 ≤ headerLen r.name := by unfold headerLen; omega
    by_cases hk : r.header.length + r.data.length ≤ K - p
    · have hc : contained (K - p) (r :: b) = r :: contained (K - (p + r.wire.length)) b := by
        conv => lhs; unfold contained
        rw [if_pos hk, Nat.sub_sub]
      rw [hc] at hf ⊢
      have e : (fileOf (a ++ r :: b)).take K = fileOf a ++ r.header ++ r.data ++
          (List.replicate (padding r.data.length) 0 ++ fileOf b).take (K - p - (r.header.length + r.data.length)) := by
        rw [show fileOf (a ++ r :: b) = (fileOf a ++ r.header ++ r.data) ++ (List.replicate (padding r.data.length) 0 ++ fileOf b) by
          simp [fileOf_append, fileOf_cons, Rec.wire]]
        rw [List.take_append, List.take_of_length_le (by simp; omega)]
        congr 2
        simp; omega
      have h1 := readRecordInfo_eq buf (fileOf a) (r.data ++ (List.replicate (padding r.data.length) 0 ++ fileOf b).take (K - p - (r.header.length + r.data.length))) r hr1 p hp
      have h2 := readRecordData_eq (fileOf a) ((List.replicate (padding r.data.length) 0 ++ fileOf b).take (K - p - (r.header.length + r.data.length))) r p (p + headerLen r.name) hp
      rw [← List.append_assoc, ← e] at h1
      rw [← e] at h2
      have hspan : spanOf (r.header ++ r.data) (headerLen r.name) r.data.length = .ok r.data := by
        unfold spanOf
        rw [if_neg (by simp [header_length]), ← header_length, List.drop_left, List.take_length]
      have hap : a ++ r :: b = (a ++ [r]) ++ b := by simp
      have ih' := fun st buf => ih (fun x hx => hb x (by simp [hx])) (a ++ [r]) buf st (p + r.wire.length) (by simp [hp, fileOf_append, fileOf_cons, fileOf_nil])
        fuel (by simp only [List.length_cons] at hf; omega)
      have go : ∀ st' buf', (∀ rem mid, (scan (fun st i => (st, v i)) func st' (p + r.wire.length) (contained (K - (p + r.wire.length)) b)).2.2 = some rem →
            r :: contained (K - (p + r.wire.length)) b = mid ++ rem →
          ∃ buf'', readRecords (fun st i => (st, v i)) func fuel st' (ready ((fileOf (a ++ r :: b)).take K) (p + r.wire.length)) buf' =
            ((scan (fun st i => (st, v i)) func st' (p + r.wire.length) (contained (K - (p + r.wire.length)) b)).1,
              (scan (fun st i => (st, v i)) func st' (p + r.wire.length) (contained (K - (p + r.wire.length)) b)).2.1,
              ready ((fileOf (a ++ r :: b)).take K) (p + (fileOf mid).length), buf'')) ∧
          ((scan (fun st i => (st, v i)) func st' (p + r.wire.length) (contained (K - (p + r.wire.length)) b)).2.2 = none →
            ∃ e s' buf'', readRecords (fun st i => (st, v i)) func fuel st' (ready ((fileOf (a ++ r :: b)).take K) (p + r.wire.length)) buf' =
              ((scan (fun st i => (st, v i)) func st' (p + r.wire.length) (contained (K - (p + r.wire.length)) b)).1, .error e, s', buf'') ∧ CutErr e) := by
        intro st' buf'
        obtain ⟨i1, i2⟩ := ih' st' buf'
        rw [← hap] at i1 i2
        refine ⟨?_, i2⟩
        intro rem mid hs hm
        have hne : ∃ mid', contained (K - (p + r.wire.length)) b = mid' ++ rem := scan_rest _ _ _ _ _ _ hs
        obtain ⟨mid', hm'⟩ := hne
        have : mid = r :: mid' := by
          rw [hm', ← List.cons_append] at hm
          exact (List.append_cancel_right hm).symm
        subst this
        obtain ⟨buf'', hx⟩ := i1 rem mid' hs hm'
        exact ⟨buf'', by rw [hx, fileOf_cons, List.length_append, Nat.add_assoc]⟩
      rw [scan_cons]
      unfold readRecords
      rw [h1]
      simp only
      cases hv : v (r.info p) with
      | false =>
        simp only [seekg_ready]
        rw [show (r.info p).fileEnd = p + r.wire.length from rfl]
        exact go st _
      | true =>
        simp only
        rw [show (r.info p).headerLength = headerLen r.name from rfl, show (r.info p).dataLength = r.data.length from rfl, h2]
        simp only [hspan]
        cases hfn : func st (r.info p) r.data with
        | mk st2 res =>
          cases res with
          | error e =>
            refine ⟨?_, by intro h; simp at h⟩
            intro rem mid h hm
            simp only [Option.some.injEq] at h
            subst h
            have : mid = [r] := List.append_cancel_right (hm.symm.trans rfl)
            subst this
            exact ⟨r.header ++ r.data, by simp [fileOf_cons, fileOf_nil]⟩
          | ok c =>
            cases c with
            | true => exact go st2 _
            | false =>
              refine ⟨?_, by intro h; simp at h⟩
              intro rem mid h hm
              simp only [Option.some.injEq] at h
              subst h
              have : mid = [r] := List.append_cancel_right (hm.symm.trans rfl)
              subst this
              exact ⟨r.header ++ r.data, by simp [fileOf_cons, fileOf_nil]⟩
    · have hc : contained (K - p) (r :: b) = [] := by
        conv => lhs; unfold contained
        rw [if_neg hk]
      rw [hc] at hf ⊢
      refine ⟨by intro rem mid h; simp [scan] at h, fun _ => ?_⟩
      simp only [scan]
      by_cases hK : K < p
      · obtain ⟨b', h⟩ := readRecordInfo_end ((fileOf (a ++ r :: b)).take K) buf p (by simp; omega)
        unfold readRecords
        rw [h]
        exact ⟨.eof, _, _, rfl, .inl rfl⟩
      · have hB : (fileOf (a ++ r :: b)).take K = fileOf a ++ r.wire.take (K - p) := by
          rw [fileOf_append, fileOf_cons, List.take_append, List.take_of_length_le (by omega), ← hp, List.take_append_of_le_length (by omega)]
        rw [hB]
        by_cases hh : K - p < r.header.length
        · have hcut : r.header = r.wire.take (K - p) ++ r.header.drop (K - p) := by
            unfold Rec.wire
            rw [List.append_assoc, List.take_append_of_le_length (by omega), List.take_append_drop]
          obtain ⟨res, q, buf', h1, h2, -⟩ := readRecordInfo_cut buf (fileOf a) (r.wire.take (K - p)) (r.header.drop (K - p)) r hr1 p hp hcut (by
            intro h0
            have := congrArg List.length h0
            simp at this; omega)
          unfold readRecords
          rw [h1]
          cases res with
          | error e =>
            refine ⟨e, _, _, rfl, ?_⟩
            rcases h2 e rfl with h | h
            · exact .inl h
            · exact .inr (.inl h)
          | ok info =>
            simp only
            cases hv : v info with
            | true => exact ⟨.badState, _, _, rfl, .inr (.inr (.inl rfl))⟩
            | false =>
              simp only
              obtain ⟨fuel, rfl⟩ : ∃ f, fuel = f + 1 := ⟨fuel - 1, by simp at hf; omega⟩
              exact ⟨.badState, _, _, rfl, .inr (.inr (.inl rfl))⟩
        · have hd : (r.data.take (K - p - r.header.length)).length < r.data.length := by simp; omega
          have hcut : r.wire.take (K - p) = r.header ++ r.data.take (K - p - r.header.length) := by
            unfold Rec.wire
            rw [List.append_assoc, List.take_append, List.take_of_length_le (by omega), List.take_append_of_le_length (by omega)]
          have h1 := readRecordInfo_eq buf (fileOf a) (r.data.take (K - p - r.header.length)) r hr1 p hp
          obtain ⟨q', b', h2⟩ := readRecordData_cut r.header (fileOf a) (r.data.take (K - p - r.header.length)) r p (p + headerLen r.name) hp hd (headerLen r.name)
          rw [List.append_assoc, ← hcut] at h1 h2
          unfold readRecords
          rw [h1]
          simp only
          cases hv : v (r.info p) with
          | true =>
            simp only
            rw [show (r.info p).headerLength = headerLen r.name from rfl, h2]
            exact ⟨.ioFailure, _, _, rfl, .inr (.inr (.inr rfl))⟩
          | false =>
            simp only [seekg_ready]
            obtain ⟨fuel, rfl⟩ : ∃ f, fuel = f + 1 := ⟨fuel - 1, by simp at hf; omega⟩
            obtain ⟨b'', h3⟩ := readRecordInfo_end (fileOf a ++ r.wire.take (K - p)) r.header (r.info p).fileEnd (by
              show _ ≤ p + r.wire.length
              simp; omega)
            unfold readRecords
            rw [h3]
            exact ⟨.eof, _, _, rfl, .inl rfl⟩

/-- Reading records that are followed by something else. -/
theorem readRecords_tail {σ : Type} (valid : σ → RecordInfo → σ × Bool) (func : σ → RecordInfo → List Byte → σ × Except Err Bool)
    (c : List Rec) (hc : ∀ r ∈ c, r.Ok) (pre X buf : List Byte) (st : σ) (p : Nat) (hp : p = pre.length) (fuel : Nat) (hf : c.length < fuel) (rem mid : List Rec)
    (hs : (scan valid func st p c).2.2 = some rem) (hm : c = mid ++ rem) :
    ∃ buf', readRecords valid func fuel st (ready (pre ++ fileOf c ++ X) p) buf =
      ((scan valid func st p c).1, (scan valid func st p c).2.1, ready (pre ++ fileOf c ++ X) (p + (fileOf mid).length), buf') := by
  induction c generalizing pre buf st fuel p mid with
  | nil => simp [scan] at hs
  | cons r c ih =>
    obtain ⟨fuel, rfl⟩ : ∃ f, fuel = f + 1 := ⟨fuel - 1, by simp at hf; omega⟩
    have h1 := readRecordInfo_file buf pre r c (hc r (by simp)) p hp X
    have h2 := readRecordData_file pre r c p (p + headerLen r.name) hp X
    have hsplit : pre ++ fileOf (r :: c) ++ X = (pre ++ r.wire) ++ fileOf c ++ X := by simp [fileOf_cons]
    have hspan : spanOf (r.header ++ r.data) (headerLen r.name) r.data.length = .ok r.data := by
      unfold spanOf
      rw [if_neg (by simp [header_length]), ← header_length, List.drop_left, List.take_length]
    have go : ∀ st' buf', (scan valid func st' (p + r.wire.length) c).2.2 = some rem →
        ∃ buf'', readRecords valid func fuel st' (ready (pre ++ fileOf (r :: c) ++ X) (p + r.wire.length)) buf' =
          ((scan valid func st' (p + r.wire.length) c).1, (scan valid func st' (p + r.wire.length) c).2.1,
            ready (pre ++ fileOf (r :: c) ++ X) (p + (fileOf mid).length), buf'') := by
      intro st' buf' hs'
      obtain ⟨mid', hm'⟩ := scan_rest _ _ _ _ _ _ hs'
      have : mid = r :: mid' := by
        rw [hm', ← List.cons_append] at hm
        exact (List.append_cancel_right hm).symm
      subst this
      obtain ⟨buf'', hx⟩ := ih (fun x hx => hc x (by simp [hx])) (pre ++ r.wire) buf' st' (p + r.wire.length) (by simp [hp]) fuel (by simp at hf; omega) mid' hs' hm'
      rw [← hsplit] at hx
      exact ⟨buf'', by rw [hx, fileOf_cons r mid', List.length_append, Nat.add_assoc]⟩
    rw [scan_cons] at hs ⊢
    unfold readRecords
    rw [h1]
    simp only
    cases hv : valid st (r.info p) with
    | mk st1 b =>
    rw [hv] at hs
    cases b with
    | false =>
      simp only [seekg_ready]
      rw [show (r.info p).fileEnd = p + r.wire.length from rfl]
      exact go st1 _ hs
    | true =>
      simp only at hs ⊢
      rw [show (r.info p).headerLength = headerLen r.name from rfl, show (r.info p).dataLength = r.data.length from rfl, h2]
      simp only [hspan]
      cases hfn : func st1 (r.info p) r.data with
      | mk st2 res =>
        rw [hfn] at hs
        cases res with
        | error e =>
          simp only [Option.some.injEq] at hs
          subst hs
          have : mid = [r] := List.append_cancel_right (hm.symm.trans rfl)
          subst this
          exact ⟨r.header ++ r.data, by simp [fileOf_cons, fileOf_nil]⟩
        | ok x =>
          cases x with
          | true => exact go st2 _ hs
          | false =>
            simp only [Option.some.injEq] at hs
            subst hs
            have : mid = [r] := List.append_cancel_right (hm.symm.trans rfl)
            subst this
            exact ⟨r.header ++ r.data, by simp [fileOf_cons, fileOf_nil]⟩

/-! ## Streams with records ahead -/

/-- The stream is in a file that is cut, and these records are still complete. -/
def CutStream (s : IStream) (c : List Rec) : Prop :=
  ∃ a b K, s = ready ((fileOf (a ++ b)).take K) (fileOf a).length ∧ (∀ r ∈ b, r.Ok) ∧ contained (K - (fileOf a).length) b = c

/-- These records are ahead, and then something else. -/
def TailStream (s : IStream) (c : List Rec) : Prop := ∃ pre X, s = ready (pre ++ fileOf c ++ X) pre.length ∧ ∀ r ∈ c, r.Ok

/-- Records can be read from a stream as long as they are ahead. -/
def Steps (H : IStream → List Rec → Prop) : Prop := ∀ {σ : Type} (v : RecordInfo → Bool) (func : σ → RecordInfo → List Byte → σ × Except Err Bool) (s : IStream) (c : List Rec),
  H s c → ∀ (st : σ) (buf : List Byte) (rem : List Rec), (scan (fun st i => (st, v i)) func st s.pos c).2.2 = some rem →
  ∃ s' buf', readRecords (fun st i => (st, v i)) func (recordFuel s) st s buf =
    ((scan (fun st i => (st, v i)) func st s.pos c).1, (scan (fun st i => (st, v i)) func st s.pos c).2.1, s', buf') ∧ H s' rem

theorem contained_append (mid rem b : List Rec) (k : Nat) (h : contained k b = mid ++ rem) :
    ∃ b', b = mid ++ b' ∧ contained (k - (fileOf mid).length) b' = rem := by
  induction mid generalizing b k with
  | nil => exact ⟨b, rfl, by simpa [fileOf_nil] using h⟩
  | cons r mid ih =>
    cases b with
    | nil => simp [contained] at h
    | cons r' b =>
      unfold contained at h
      split at h
      · simp only [List.cons_append, List.cons.injEq] at h
        obtain ⟨rfl, h⟩ := h
        obtain ⟨b', h1, h2⟩ := ih b _ h
        exact ⟨b', by rw [h1]; rfl, by rw [fileOf_cons, List.length_append, ← Nat.sub_sub]; exact h2⟩
      · simp at h

theorem cut_fuel (a b : List Rec) (K : Nat) : (contained (K - (fileOf a).length) b).length + 1 < recordFuel (ready ((fileOf (a ++ b)).take K) (fileOf a).length) := by
  have := contained_size (K - (fileOf a).length) b
  simp only [recordFuel, List.length_take, fileOf_append, List.length_append] at this ⊢
  omega

theorem cut_steps : Steps CutStream := by
  intro σ v func s c h st buf rem hs
  obtain ⟨a, b, K, rfl, hb, hc⟩ := h
  subst hc
  obtain ⟨mid, hm⟩ := scan_rest _ _ _ _ _ _ hs
  obtain ⟨buf', h1⟩ := (readRecords_cut v func b hb a K buf st (fileOf a).length rfl _ (cut_fuel a b K)).1 rem mid hs hm
  obtain ⟨b', h2, h3⟩ := contained_append mid rem b _ hm
  refine ⟨_, buf', h1, a ++ mid, b', K, ?_, fun r hr => hb r (by rw [h2]; simp [hr]), ?_⟩
  · rw [h2, List.append_assoc, fileOf_append, fileOf_append a mid, List.length_append]
  · rw [fileOf_append, List.length_append, ← Nat.sub_sub]; exact h3

theorem cut_end {σ : Type} (v : RecordInfo → Bool) (func : σ → RecordInfo → List Byte → σ × Except Err Bool) (s : IStream) (c : List Rec) (h : CutStream s c)
    (st : σ) (buf : List Byte) (hs : (scan (fun st i => (st, v i)) func st s.pos c).2.2 = none) :
    ∃ e s' buf', readRecords (fun st i => (st, v i)) func (recordFuel s) st s buf = ((scan (fun st i => (st, v i)) func st s.pos c).1, .error e, s', buf') ∧ CutErr e := by
  obtain ⟨a, b, K, rfl, hb, hc⟩ := h
  subst hc
  exact (readRecords_cut v func b hb a K buf st (fileOf a).length rfl _ (cut_fuel a b K)).2 hs

theorem tail_steps : Steps TailStream := by
  intro σ v func s c h st buf rem hs
  obtain ⟨pre, X, rfl, hc⟩ := h
  obtain ⟨mid, hm⟩ := scan_rest _ _ _ _ _ _ hs
  obtain ⟨buf', h1⟩ := readRecords_tail (fun st i => (st, v i)) func c hc pre X buf st pre.length rfl (recordFuel (ready (pre ++ fileOf c ++ X) pre.length))
    (by have := fileOf_length c; simp only [recordFuel, List.length_append]; omega) rem mid hs hm
  refine ⟨_, buf', h1, pre ++ fileOf mid, X, ?_, fun r hr => hc r (by rw [hm]; simp [hr])⟩
  rw [hm, fileOf_append, List.length_append, ← List.append_assoc pre]

/-! ## Readers -/

/-- The header record of an event without the rest of the event. -/
structure Half (cfg : RConfig) (r : Rec) : Prop where
  ok : r.Ok
  name : r.name = headerRecordName
  read : ∃ d hdr, plainOf cfg.codec r = .ok d ∧ decodeHeader cfg d = .ok hdr

/-- The last thing may be incomplete. -/
def Rest (cfg : RConfig) (x : List Rec) : Prop := x = [] ∨ ∃ r, x = [r] ∧ Half cfg r

/-- The reader is in its last file, and these things are ahead. -/
structure Ahead (H : IStream → List Rec → Prop) (cfg : RConfig) (r : Reader) (name : Str) (ps : List Put) : Prop where
  stream : ∃ c x, H r.stream (c ++ x) ∧ Layout cfg.codec cfg.std ps c ∧ Rest cfg x
  file : r.fileName = .ok name
  last : r.hasNext = false

theorem ahead_event {H : IStream → List Rec → Prop} (hH : Steps H) (cfg : RConfig) (r : Reader) (name : Str) (ps : List Put) (h : Ahead H cfg r name ps)
    (pre : List Put) (p : Put) (ps' : List Put) (hps : ps = pre ++ p :: ps') (hpre : ∀ p ∈ pre, p.isEvent = false) (e : EventData)
    (he : delivery cfg name p = some (.event e)) :
    ∃ r', r.readNextEvent cfg = (.ok (some e), r') ∧ Ahead H cfg r' name ps' := by
  obtain ⟨c, x, h1, h2, h3⟩ := h.stream
  obtain ⟨st', rs', mid, e0, a1, a2, a3, a4, a5⟩ := scan_events cfg h2 pre p ps' hps hpre e name he r.stream.pos
  have hsc : scan (fun st i => (st, isEventRecord i)) (eventProcessor cfg) {} r.stream.pos (c ++ x) = (st', .ok (), some (rs' ++ x)) := by
    rw [scan_append, a1]
  obtain ⟨s', buf', b1, b2⟩ := hH isEventRecord (eventProcessor cfg) r.stream (c ++ x) h1 {} r.buf (rs' ++ x) (by rw [hsc])
  unfold Reader.readNextEvent Reader.readNextEventLoop
  rw [b1, hsc]
  simp only [a4, a5]
  exact ⟨_, rfl, ⟨rs', x, b2, a3, h3⟩, h.file, h.last⟩

theorem ahead_run {H : IStream → List Rec → Prop} (hH : Steps H) (cfg : RConfig) (r : Reader) (name : Str) (ps : List Put) (h : Ahead H cfg r name ps)
    (pre : List Put) (p : Put) (ps' : List Put) (hps : ps = pre ++ p :: ps') (hpre : ∀ p ∈ pre, p.isEvent = true) (hd : RunHeader)
    (he : delivery cfg name p = some (.run hd)) :
    ∃ r', r.readNextRunHeader cfg = (.ok (some hd), r') ∧ Ahead H cfg r' name ps' := by
  have he' : p.loadedRun name = some hd := by
    cases p with
    | run h' b => simpa [delivery] using he
    | event h' c b =>
      simp only [delivery] at he
      split at he <;> simp at he
  obtain ⟨c, x, h1, h2, h3⟩ := h.stream
  obtain ⟨rs', mid, a1, a2, a3⟩ := scan_runs cfg name h2 pre p ps' hps hpre hd he' r.stream.pos
  have hsc : scan (fun st i => (st, i.name == runRecordName)) (runProcessor cfg (.ok name)) none r.stream.pos (c ++ x) = (some hd, .ok (), some (rs' ++ x)) := by
    rw [scan_append, a1]
  obtain ⟨s', buf', b1, b2⟩ := hH (fun i => i.name == runRecordName) (runProcessor cfg (.ok name)) r.stream (c ++ x) h1 none r.buf (rs' ++ x) (by rw [hsc])
  unfold Reader.readNextRunHeader Reader.readNextRunLoop
  rw [h.file, b1, hsc]
  exact ⟨_, rfl, ⟨rs', x, b2, a3, h3⟩, h.file, h.last⟩

theorem scan_half (cfg : RConfig) (x : List Rec) (h : Rest cfg x) (st : EventState) (p : Nat) :
    (scan (fun st i => (st, isEventRecord i)) (eventProcessor cfg) st p x).2.2 = none := by
  rcases h with rfl | ⟨r, rfl, hr⟩
  · rfl
  · obtain ⟨d, hdr, h1, h2⟩ := hr.read
    rw [scan_cons]
    have v1 : isEventRecord (r.info p) = true := by simp [isEventRecord, Rec.info, hr.name]
    rw [v1]
    have p1 : eventProcessor cfg st (r.info p) r.data = ({ hdr := some hdr }, .ok true) := by
      unfold eventProcessor
      rw [plainData_rec, h1]
      simp only
      rw [if_pos (by exact hr.name), h2]
    simp only [p1]
    rfl

theorem scan_half_run (cfg : RConfig) (file : Except Err Str) (x : List Rec) (h : Rest cfg x) (st : Option RunHeader) (p : Nat) :
    (scan (fun st i => (st, i.name == runRecordName)) (runProcessor cfg file) st p x).2.2 = none := by
  rcases h with rfl | ⟨r, rfl, hr⟩
  · rfl
  · rw [scan_skip]
    · rfl
    · simp [Rec.info, hr.name]; decide

theorem cut_no_event (cfg : RConfig) (r : Reader) (name : Str) (ps : List Put) (h : Ahead CutStream cfg r name ps) (hp : ∀ p ∈ ps, p.isEvent = false) :
    ∃ r', r.readNextEvent cfg = (.ok none, r') ∨ ∃ e, r.readNextEvent cfg = (.error e, r') ∧ CutErr e ∧ e ≠ .eof := by
  obtain ⟨c, x, h1, h2, h3⟩ := h.stream
  have a1 := scan_events_none cfg h2 hp {} r.stream.pos
  have hsc : (scan (fun st i => (st, isEventRecord i)) (eventProcessor cfg) {} r.stream.pos (c ++ x)).2.2 = none := by
    rw [scan_append, a1]
    exact scan_half cfg x h3 _ _
  obtain ⟨e, s', buf', b1, b2⟩ := cut_end isEventRecord (eventProcessor cfg) r.stream (c ++ x) h1 {} r.buf hsc
  unfold Reader.readNextEvent Reader.readNextEventLoop
  rw [b1]
  have hl := h.last
  unfold Reader.hasNext at hl
  rcases b2 with rfl | rfl | rfl | rfl
  · simp only [Reader.hasNext, hl, Bool.false_eq_true, if_false]
    exact ⟨_, .inl rfl⟩
  · exact ⟨_, .inr ⟨_, rfl, .inr (.inl rfl), by simp⟩⟩
  · exact ⟨_, .inr ⟨_, rfl, .inr (.inr (.inl rfl)), by simp⟩⟩
  · exact ⟨_, .inr ⟨_, rfl, .inr (.inr (.inr rfl)), by simp⟩⟩

theorem cut_no_run (cfg : RConfig) (r : Reader) (name : Str) (ps : List Put) (h : Ahead CutStream cfg r name ps) (hp : ∀ p ∈ ps, p.isEvent = true) :
    ∃ r', r.readNextRunHeader cfg = (.ok none, r') ∨ ∃ e, r.readNextRunHeader cfg = (.error e, r') ∧ CutErr e ∧ e ≠ .eof := by
  obtain ⟨c, x, h1, h2, h3⟩ := h.stream
  have a1 := scan_runs_none cfg (.ok name) h2 hp none r.stream.pos
  have hsc : (scan (fun st i => (st, i.name == runRecordName)) (runProcessor cfg (.ok name)) none r.stream.pos (c ++ x)).2.2 = none := by
    rw [scan_append, a1]
    exact scan_half_run cfg _ x h3 _ _
  obtain ⟨e, s', buf', b1, b2⟩ := cut_end (fun i => i.name == runRecordName) (runProcessor cfg (.ok name)) r.stream (c ++ x) h1 none r.buf hsc
  unfold Reader.readNextRunHeader Reader.readNextRunLoop
  rw [h.file, b1]
  have hl := h.last
  unfold Reader.hasNext at hl
  rcases b2 with rfl | rfl | rfl | rfl
  · simp only [Reader.hasNext, hl, Bool.false_eq_true, if_false]
    exact ⟨_, .inl rfl⟩
  · exact ⟨_, .inr ⟨_, rfl, .inr (.inl rfl), by simp⟩⟩
  · exact ⟨_, .inr ⟨_, rfl, .inr (.inr (.inl rfl)), by simp⟩⟩
  · exact ⟨_, .inr ⟨_, rfl, .inr (.inr (.inr rfl)), by simp⟩⟩

theorem wanted_split (want : Put → Bool) (name : Str) (ps : List Put) :
    (∃ pre p ps', ps = pre ++ p :: ps' ∧ (∀ p ∈ pre, want p = false) ∧ want p = true ∧
      (ps.map fun p => (name, p)).dropWhile (fun x => !want x.2) = (name, p) :: ps'.map fun p => (name, p)) ∨
    ((∀ p ∈ ps, want p = false) ∧ (ps.map fun p => (name, p)).dropWhile (fun x => !want x.2) = []) := by
  have := following_split want name ps []
  simpa [following_eq, items] using this

theorem ahead_call {H : IStream → List Rec → Prop} (hH : Steps H) (cfg : RConfig) (g : Get) (r : Reader) (name : Str) (ps : List Put) (h : Ahead H cfg r name ps)
    (pre : List Put) (p : Put) (ps' : List Put) (hps : ps = pre ++ p :: ps') (hpre : ∀ p ∈ pre, g.wants p = false) (hw : g.wants p = true) (d : Delivery)
    (hd : delivery cfg name p = some d) : ∃ r', g.call cfg r = (.ok (some d), r') ∧ Ahead H cfg r' name ps' := by
  cases g with
  | event =>
    have : ∃ e, d = .event e := by
      cases p with
      | run h b => simp [Get.wants, Put.isEvent] at hw
      | event h c b =>
        simp only [delivery] at hd
        split at hd
        · simp at hd
        · simp only [Option.some.injEq] at hd; exact ⟨_, hd.symm⟩
    obtain ⟨e, rfl⟩ := this
    obtain ⟨r', h1, h2⟩ := ahead_event hH cfg r name ps h pre p ps' hps hpre e hd
    exact ⟨r', by simp [Get.call, h1], h2⟩
  | run =>
    have : ∃ e, d = .run e := by
      cases p with
      | run h b =>
        simp only [delivery, Put.loadedRun, Option.map_some, Option.some.injEq] at hd
        exact ⟨_, hd.symm⟩
      | event h c b => simp [Get.wants, Put.isEvent] at hw
    obtain ⟨e, rfl⟩ := this
    obtain ⟨r', h1, h2⟩ := ahead_run hH cfg r name ps h pre p ps' hps (fun p hp => by simpa [Get.wants] using hpre p hp) e hd
    exact ⟨r', by simp [Get.call, h1], h2⟩

/-- Calls get what is ahead. -/
theorem ahead_gets {H : IStream → List Rec → Prop} (hH : Steps H) (cfg : RConfig) (gs : List Get) (r : Reader) (name : Str) (ps : List Put) (h : Ahead H cfg r name ps)
    (hl : ∀ p ∈ ps, delivery cfg name p ≠ none) (hn : none ∉ serve cfg gs (ps.map fun p => (name, p))) :
    gets cfg gs r = .ok (serve cfg gs (ps.map fun p => (name, p))) := by
  induction gs generalizing r ps with
  | nil => rfl
  | cons g gs ih =>
    unfold serve at hn
    unfold gets serve
    rcases wanted_split g.wants name ps with ⟨pre, p, ps', a1, a2, a3, a4⟩ | ⟨a1, a2⟩
    · rw [a4] at hn ⊢
      cases hv : delivery cfg name p with
      | none => exact absurd hv (hl p (by rw [a1]; simp))
      | some d =>
        obtain ⟨r', h1, h2⟩ := ahead_call hH cfg g r name ps h pre p ps' a1 a2 a3 d hv
        have := ih r' ps' h2 (fun y hy => hl y (by rw [a1]; simp [hy])) (fun hm => hn (by simp [hm]))
        simp only [h1, this, hv]
    · rw [a2] at hn; simp at hn

/-- In a file that is cut, calls get what is complete, and then null or an exception. -/
theorem cut_gets (cfg : RConfig) (gs : List Get) (r : Reader) (name : Str) (ps : List Put) (h : Ahead CutStream cfg r name ps)
    (hl : ∀ p ∈ ps, delivery cfg name p ≠ none) :
    gets cfg gs r = .ok (serve cfg gs (ps.map fun p => (name, p))) ∨
    (none ∈ serve cfg gs (ps.map fun p => (name, p)) ∧ ∃ e, gets cfg gs r = .error e ∧ CutErr e ∧ e ≠ .eof) := by
  induction gs generalizing r ps with
  | nil => left; rfl
  | cons g gs ih =>
    unfold gets serve
    rcases wanted_split g.wants name ps with ⟨pre, p, ps', a1, a2, a3, a4⟩ | ⟨a1, a2⟩
    · rw [a4]
      cases hv : delivery cfg name p with
      | none => exact absurd hv (hl p (by rw [a1]; simp))
      | some d =>
        obtain ⟨r', h1, h2⟩ := ahead_call cut_steps cfg g r name ps h pre p ps' a1 a2 a3 d hv
        rcases ih r' ps' h2 (fun y hy => hl y (by rw [a1]; simp [hy])) with hx | ⟨hx, e, hy, hz⟩
        · left; simp only [h1, hx, hv]
        · right
          exact ⟨by simp [hx], e, by simp only [h1, hy], hz⟩
    · rw [a2]
      have : ∃ r', g.call cfg r = (.ok none, r') ∨ ∃ e, g.call cfg r = (.error e, r') ∧ CutErr e ∧ e ≠ .eof := by
        cases g with
        | event =>
          obtain ⟨r', h1 | ⟨e, h1, h2⟩⟩ := cut_no_event cfg r name ps h a1
          · exact ⟨r', .inl (by simp [Get.call, h1])⟩
          · exact ⟨r', .inr ⟨e, by simp [Get.call, h1], h2⟩⟩
        | run =>
          obtain ⟨r', h1 | ⟨e, h1, h2⟩⟩ := cut_no_run cfg r name ps h (fun p hp => by simpa [Get.wants] using a1 p hp)
          · exact ⟨r', .inl (by simp [Get.call, h1])⟩
          · exact ⟨r', .inr ⟨e, by simp [Get.call, h1], h2⟩⟩
      obtain ⟨r', h1 | ⟨e, h1, h2⟩⟩ := this
      · left; simp only [h1]
      · right
        exact ⟨by simp, e, by simp only [h1], h2⟩

/-! ## The complete things at the start of a file -/

/-- Records that complete a run header or an event. -/
def completes (r : Rec) : Bool := r.name == runRecordName || r.name == eventRecordName

theorem layout_count {codec : Codec} {std : Std Pid} {ps : List Put} {rs : List Rec} (h : Layout codec std ps rs) : rs.countP completes = ps.length := by
  induction h with
  | nil => rfl
  | other r ps rs hr h1 h2 h3 h ih => rw [List.countP_cons, ih]; simp [completes, h1, h3]
  | put p g ps rs hp h ih =>
    rw [List.countP_append, ih, List.length_cons]
    cases p with
    | run hd buf =>
      obtain ⟨r, rfl, a, -⟩ := hp
      simp [completes, a.named, Nat.add_comm]
    | event hd cols buf =>
      obtain ⟨r, r', rfl, a, b⟩ := hp
      have h1 : completes r = false := by simp only [completes, a.named]; decide
      have h2 : completes r' = true := by simp [completes, b.named]
      simp [h1, h2, Nat.add_comm]

/-- The first records of a file with things. -/
theorem layout_prefix (cfg : RConfig) (name : Str) {ps : List Put} {rs : List Rec} (h : Layout cfg.codec cfg.std ps rs) (hl : ∀ p ∈ ps, delivery cfg name p ≠ none) (c d : List Rec) (hcd : rs = c ++ d) :
    ∃ m c' x, m ≤ ps.length ∧ c = c' ++ x ∧ Layout cfg.codec cfg.std (ps.take m) c' ∧ Rest cfg x ∧ c.countP completes = m := by
  induction h generalizing c with
  | nil =>
    have : c = [] := by simp at hcd; exact hcd.1
    subst this
    exact ⟨0, [], [], by simp, rfl, .nil, .inl rfl, rfl⟩
  | other r ps rs hr h1 h2 h3 h ih =>
    cases c with
    | nil => exact ⟨0, [], [], by simp, rfl, .nil, .inl rfl, rfl⟩
    | cons r' c =>
      simp only [List.cons_append, List.cons.injEq] at hcd
      obtain ⟨rfl, hcd⟩ := hcd
      obtain ⟨m, c', x, a0, a1, a2, a3, a4⟩ := ih hl c hcd
      exact ⟨m, r :: c', x, a0, by rw [a1]; rfl, .other r _ _ hr h1 h2 h3 a2, a3, by rw [List.countP_cons, a4]; simp [completes, h1, h3]⟩
  | put p g ps rs hp h ih =>
    have hp' := hp
    have whole : ∀ c1, c = g ++ c1 → ∃ m c' x, m ≤ (p :: ps).length ∧ c = c' ++ x ∧ Layout cfg.codec cfg.std ((p :: ps).take m) c' ∧ Rest cfg x ∧ c.countP completes = m := by
      intro c1 hc1
      rw [hc1, List.append_assoc] at hcd
      obtain ⟨m, c', x, a0, a1, a2, a3, a4⟩ := ih (fun q hq => hl q (by simp [hq])) c1 (List.append_cancel_left hcd)
      have hg := layout_count (.put p g [] [] hp .nil)
      rw [List.append_nil] at hg
      refine ⟨m + 1, g ++ c', x, by simp; omega, by rw [hc1, a1, List.append_assoc], ?_, a3, ?_⟩
      · rw [List.take_succ_cons]; exact .put p g _ _ hp a2
      · rw [hc1, List.countP_append, a4, hg]; simp; omega
    cases p with
    | run hd buf =>
      obtain ⟨r, rfl, a, -⟩ := hp'
      cases c with
      | nil => exact ⟨0, [], [], by simp, rfl, .nil, .inl rfl, rfl⟩
      | cons r' c =>
        simp only [List.cons_append, List.nil_append, List.cons.injEq] at hcd
        exact whole c (by rw [hcd.1]; rfl)
    | event hd cols buf =>
      have hne := hl (.event hd cols buf) (by simp)
      have : ∃ e, delivery cfg name (.event hd cols buf) = some (.event e) := by
        simp only [delivery] at hne ⊢
        split at hne
        · exact absurd rfl hne
        · exact ⟨_, rfl⟩
      obtain ⟨e, he⟩ := this
      obtain ⟨r, r', rfl, hrec⟩ := holds_event cfg hd cols buf g e hp name he
      match c, hcd with
      | [], _ => exact ⟨0, [], [], by simp, rfl, .nil, .inl rfl, rfl⟩
      | [q], hcd =>
        simp only [List.cons_append, List.nil_append, List.cons.injEq] at hcd
        obtain ⟨rfl, -⟩ := hcd
        obtain ⟨d1, d2, hdr, cols', b1, b2, b3, b4⟩ := hrec.read
        refine ⟨0, [], [r], by simp, rfl, .nil, .inr ⟨r, rfl, hrec.ok, hrec.name, d1, hdr, b1, b3⟩, ?_⟩
        have : completes r = false := by simp only [completes, hrec.name]; decide
        simp [this]
      | q :: q' :: c, hcd =>
        simp only [List.cons_append, List.nil_append, List.cons.injEq] at hcd
        exact whole c (by rw [hcd.1, hcd.2.1]; rfl)

theorem contained_prefix (k : Nat) (rs : List Rec) : ∃ d, rs = contained k rs ++ d := by
  induction rs generalizing k with
  | nil => exact ⟨[], rfl⟩
  | cons r rs ih =>
    unfold contained
    split
    · obtain ⟨d, hd⟩ := ih (k - r.wire.length)
      exact ⟨d, by rw [List.cons_append, ← hd]⟩
    · exact ⟨r :: rs, rfl⟩

/-- What fits in the first bytes is there. -/
theorem contained_ge (a b : List Rec) (k : Nat) (h : (fileOf a).length ≤ k) : ∃ d, contained k (a ++ b) = a ++ d := by
  induction a generalizing k with
  | nil => exact ⟨_, rfl⟩
  | cons r a ih =>
    rw [fileOf_cons, List.length_append] at h
    have h1 := wire_length r
    have h2 := header_length r
    rw [List.cons_append]
    unfold contained
    rw [if_pos (by omega)]
    obtain ⟨d, hd⟩ := ih (k - r.wire.length) (by omega)
    exact ⟨d, by rw [hd]; rfl⟩

/-! ## Sessions -/

/-- Writing the first things, as well as writing them all. -/
theorem over_putAll_take (codec : Codec) (hcodec : Lossless codec) (std : Std Pid) (compress : Bool) (ps : List Put) (hp : ∀ p ∈ ps, p.Ok codec std compress)
    (A T : List Byte) (ra : RaMgr) :
    ∃ gs, All2 (Holds codec std) ps gs ∧ ∀ n,
      putAll codec std compress ⟨some (over A T), ra⟩ (ps.take n) =
        .ok ⟨some (over (A ++ fileOf (gs.take n).flatten) (T.drop (fileOf (gs.take n).flatten).length)), ra.addKeys (keysFrom A.length (ps.take n) (gs.take n))⟩ := by
  induction ps generalizing A T ra with
  | nil => exact ⟨[], All2.nil _, by simp [putAll, fileOf_nil, keysFrom, RaMgr.addKeys]⟩
  | cons p ps ih =>
    obtain ⟨g, h1, h2⟩ := over_put codec hcodec std compress p (hp p (by simp)) A T ra
    obtain ⟨gs, h3, h4⟩ := ih (fun q hq => hp q (by simp [hq])) (A ++ fileOf g) (T.drop (fileOf g).length) (ra.add p.key A.length)
    refine ⟨g :: gs, All2.cons h1 h3, ?_⟩
    intro n
    cases n with
    | zero => simp [putAll, fileOf_nil, keysFrom, RaMgr.addKeys]
    | succ n =>
      rw [List.take_succ_cons, List.take_succ_cons]
      unfold putAll
      rw [h2]
      simp only [h4, List.flatten_cons, fileOf_append, List.append_assoc, List.drop_drop, List.length_append, keysFrom, RaMgr.addKeys, List.foldl_cons]

/-- A session that writes something, with what is written after each call. -/
theorem session_after (codec : Codec) (hcodec : Lossless codec) (std : Std Pid) (cs : List Chunk) (last f : Option RandomAccess) (file : Option (List Byte))
    (hc : Content codec std cs last f file) (w : Writer) (hw : Idle w) (s : Session) (hs : s.Ok codec std) (hne : s.puts ≠ [])
    (hn : (cs.flatMap Chunk.puts ++ s.puts).length < 2 ^ 27) :
    ∃ (c : Chunk) (last' f' : Option RandomAccess) (w' : Writer) (bytes : List Byte) (r : Rec), c.puts = s.puts ∧ s.run codec std w file = .ok (w', some bytes) ∧
      History codec std (cs ++ [c]) last' f' ∧ bytes = fileOf (recsOf cs) ++ fileOf c.recs ++ r.wire ∧ (∃ a, IsAccess r a) ∧ All2 (Holds codec std) c.puts c.groups ∧
      ∀ n, ∃ w'', s.after codec std w file n = .ok w'' ∧ reached w'' = (fileOf (recsOf cs)).length + (fileOf (c.groups.take n).flatten).length := by
  rw [List.length_append] at hn
  obtain ⟨stream, ra⟩ := w
  obtain ⟨w1, w2, w3, w4⟩ := hw
  simp only at w1 w2 w3 w4
  subst w1
  cases hc with
  | none h he =>
    cases h with
    | snoc => simp at he
    | nil =>
    obtain ⟨gs, g1, g2⟩ := over_putAll_take codec hcodec std s.compress s.puts hs.puts [] [] ra
    obtain ⟨c, r, w', c1, c2, c3, c4, c5, c6⟩ := close_eq codec std [] [] ra s.puts gs g1 hne (by omega) (runsClose_of _ hs.runs) (by simp) none w3 w2
    have hover : ({ bytes := [] } : OStream) = over [] [] := rfl
    have g3 := g2 (s.puts.length + gs.length)
    rw [List.take_of_length_le (by omega), List.take_of_length_le (by omega)] at g3
    refine ⟨c, _, _, w', _, r, c1, ?_, .snoc [] none none c .nil c3, rfl, ⟨_, c4⟩, by rw [c1, c2]; exact g1, ?_⟩
    · unfold Session.run Writer.openNew
      simp only [bind, Except.bind]
      rw [hover, g3]
      simp only
      rw [c5]
      simp [recsOf, fileOf_nil]
    · intro n
      unfold Session.after Writer.openNew
      simp only [bind, Except.bind]
      rw [hover, g2]
      refine ⟨_, rfl, ?_⟩
      simp [reached, over, c2, recsOf, fileOf_nil]
  | some h a ha r hr =>
    subst ha
    have hsz := history_size codec std cs last (some a) h (by omega)
    obtain ⟨buf, i1, i2⟩ := initAppend_eq codec std cs last a h (by omega) r hr ra w3 codec
    obtain ⟨gs, g1, g2⟩ := over_putAll_take codec hcodec std s.compress s.puts hs.puts (fileOf (recsOf cs)) r.wire
      { ra with list := last.toList, file := some a, buf := buf }
    obtain ⟨c, r', w', c1, c2, c3, c4, c5, c6⟩ := close_eq codec std (fileOf (recsOf cs)) r.wire
      { ra with list := last.toList, file := some a, buf := buf } s.puts gs g1 hne (by omega) (runsClose_of _ hs.runs)
      (by rw [access_wire r a hr]; exact Nat.le_refl _) last rfl w2
    have g3 := g2 (s.puts.length + gs.length)
    rw [List.take_of_length_le (by omega), List.take_of_length_le (by omega)] at g3
    have hopen : Writer.openAppend codec ⟨none, ra⟩ (some (fileOf (recsOf cs) ++ r.wire)) =
        .ok ⟨some (over (fileOf (recsOf cs)) r.wire), { ra with list := last.toList, file := some a, buf := buf }⟩ := by
      unfold Writer.openAppend
      simp only
      generalize hia : ra.initAppend codec { bytes := fileOf (recsOf cs) ++ r.wire } = x at i1 i2
      obtain ⟨x1, x2, x3⟩ := x
      simp only at i1 i2
      subst i1 i2
      simp only [if_true]
      have hlen : (fileOf (recsOf cs) ++ r.wire).length = (fileOf (recsOf cs)).length + 136 := by
        rw [List.length_append, access_wire r a hr]
      rw [if_neg (by rw [hlen]; unfold randomAccessSize; omega)]
      have hover : ({ bytes := fileOf (recsOf cs) ++ r.wire, pos := (fileOf (recsOf cs) ++ r.wire).length - randomAccessSize } : OStream) =
          over (fileOf (recsOf cs)) r.wire := by
        rw [hlen]; unfold over randomAccessSize; simp
      rw [hover]
    refine ⟨c, _, _, w', _, r', c1, ?_, .snoc cs last (some a) c h c3, rfl, ⟨_, c4⟩, by rw [c1, c2]; exact g1, ?_⟩
    · unfold Session.run
      simp only [bind, Except.bind]
      rw [hopen]
      simp only
      rw [g3]
      simp only
      rw [c5]
    · intro n
      unfold Session.after
      simp only [bind, Except.bind]
      rw [hopen]
      simp only
      rw [g2]
      refine ⟨_, rfl, ?_⟩
      simp [reached, over, c2]

end Lcio
