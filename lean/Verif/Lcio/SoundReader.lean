import Verif.Lcio.SoundEvent
import Verif.Lcio.DamageCalls
/-
The events that a reader gives are sound. (C99)
-/
namespace Lcio
open Sio Spec

/-- An event that has been finished once or several times. -/
inductive Finished (cfg : RConfig) (e0 : EventData) : EventData → Prop where
  | once {e} (h : finishEvent cfg e0 = .ok e) : Finished cfg e0 e
  | again {e e'} (h : Finished cfg e0 e) (h' : finishEvent cfg e = .ok e') : Finished cfg e0 e'

theorem finished_sound {cfg : RConfig} (hs : ∀ l, (cfg.std.sort l).Perm l) {file : List Byte} (ho : OnceIn cfg file) {hdr} {e0 e : EventData} (hI : EvInv cfg file hdr (some e0))
    (h : Finished cfg e0 e) : Sound e.2 := by
  obtain ⟨hdata, data, h1, h2, h3, h4⟩ := hI.evt e0 rfl
  obtain ⟨m1, m2, m3⟩ := decode_mid hs (decodeHeader_nodup h2) (ho _ _ _ h1 h2 h3) h4
  have key : Mid (objectsIn e0.2) e.2 := by
    induction h with
    | once h => exact (mid_finish m3 h).2
    | again _ h ih => exact (mid_finish ih h).2
  refine ⟨fun c hc e he => (key.proper c hc e he).1, fun c hc e he => (key.proper c hc e he).2, ?_, ?_, ?_⟩
  · rw [key.objects]; exact m1
  · rw [key.objects]; exact m2
  · rw [key.objects]; exact key.pointers

/-- What holds for all events that come from the files. -/
def FromFiles (cfg : RConfig) (files : List (Str × List Byte)) (G : EventData → Prop) : Prop :=
  ∀ f ∈ files, ∀ hdr e0 e, EvInv cfg f.2 hdr (some e0) → Finished cfg e0 e → G e

theorem readNextEventLoop_from (cfg : RConfig) (hc : SafeCodec cfg.codec) {files : List (Str × List Byte)} {G} (hG : FromFiles cfg files G) : ∀ fuel (r : Reader), OnFile files r →
    ∀ e, (r.readNextEventLoop cfg fuel).1 = .ok (some e) → G e
  | 0, r, h => fun e he => by unfold Reader.readNextEventLoop at he; cases he
  | fuel+1, r, h => by
    intro ev hev0
    obtain ⟨f, hfm, hfs⟩ := h.stream
    obtain ⟨k1, k2, _, _⟩ := readRecords_any (fun (st : EventState) i => (st, isEventRecord i)) (eventProcessor cfg) (fun st => EvInv cfg f.2 st.hdr st.evt)
      (Danger cfg f.2) (Stuck cfg f.2) f.2 (fun st i h => h) (fun st i data p hI hst h1 h2 => eventProcessor_any cfg hc f.2 st i data p hI hst h1 h2)
      (recordFuel r.stream) {} r.stream r.buf ⟨(fun h hh => nomatch hh), fun h hh => nomatch hh⟩ hfs
    unfold Reader.readNextEventLoop at hev0
    split at hev0
    · rename_i st s buf he
      rw [he] at k1 k2
      simp only at hev0
      split at hev0
      · cases hev0
      · rename_i e hev
        split at hev0
        · cases hev0
        · rename_i e' hfin
          cases hev0
          rw [hev] at k2
          exact hG f hfm _ e _ k2 (.once hfin)
    · rename_i st s buf he
      rw [he] at k1
      have hon : OnFile files { r with stream := s, buf := buf } := ⟨h.list, h.index, f, hfm, k1⟩
      simp only at hev0
      split at hev0
      · rename_i hn
        obtain ⟨n1, n2⟩ := nextFile_any cfg hc _ hon hn
        split at hev0
        · cases hev0
        · rename_i r1 hne
          rw [hne] at n1
          have ih := readNextEventLoop_from cfg hc hG fuel r1 n1.on ev
          split at hev0
          · cases hev0
          · exact ih hev0
      · cases hev0
    · cases hev0

theorem readNextEvent_from (cfg : RConfig) (hc : SafeCodec cfg.codec) {files : List (Str × List Byte)} {G} (hG : FromFiles cfg files G) (r : Reader) (h : OnFile files r) :
    ∀ e, (r.readNextEvent cfg).1 = .ok (some e) → G e :=
  readNextEventLoop_from cfg hc hG _ r h

theorem readEvent_from (cfg : RConfig) (hc : SafeCodec cfg.codec) {files : List (Str × List Byte)} {G} (hG : FromFiles cfg files G) (r : Reader) (run evt : W32) (h : OnFile files r) :
    ∀ e, (r.readEvent cfg run evt).1 = .ok (some e) → G e := by
  intro ev hev0
  unfold Reader.readEvent at hev0
  simp only at hev0
  split at hev0
  · split at hev0
    · have hs := seekTo_any cfg r (r.ra.map.getPosition ⟨run, evt⟩) h
      split at hev0
      · cases hev0
      · rename_i r1 he
        rw [he] at hs
        exact readNextEvent_from cfg hc hG r1 hs.on ev hev0
    · cases hev0
  · obtain ⟨f, hfm, hfs⟩ := h.stream
    obtain ⟨k1, k2, k3, k4⟩ := readRecords_any (fun (st : EventState) i => (st, isEventRecord i)) (searchProcessor cfg run evt) (fun st => EvInv cfg f.2 st.hdr st.evt)
      (Danger cfg f.2) (Stuck cfg f.2) f.2 (fun st i h => h) (fun st i data p hI hst h1 h2 => searchProcessor_any cfg hc f.2 run evt st i data p hI hst h1 h2)
      (recordFuel r.stream) {} r.stream r.buf ⟨(fun h hh => nomatch hh), fun h hh => nomatch hh⟩ hfs
    split at hev0
    · rename_i st s buf he
      rw [he] at k1 k2
      split at hev0
      · cases hev0
      · rename_i e hev
        split at hev0
        · cases hev0
        · rename_i e' hfin
          cases hev0
          rw [hev] at k2
          exact hG f hfm _ e _ k2 (.once hfin)
    · cases hev0
    · cases hev0

theorem deliver_from (cfg : RConfig) {G : EventData → Prop} : ∀ n i log (e0 e : EventData), (∀ e', Finished cfg e0 e' → G e') → (e = e0 ∨ Finished cfg e0 e) →
    (∀ d ∈ log, ∀ e, d.2 = Delivery.event e → G e) → ∀ d ∈ (deliver cfg log i n e).1, ∀ e, d.2 = Delivery.event e → G e
  | 0, i, log, e0, e, hG, he, hl => hl
  | n+1, i, log, e0, e, hG, he, hl => by
    unfold deliver
    split
    · exact hl
    · rename_i e' hf
      have hfin : Finished cfg e0 e' := by
        rcases he with rfl | he
        · exact .once hf
        · exact .again he hf
      refine deliver_from cfg n (i+1) _ e0 e' hG (Or.inr hfin) fun d hd e1 h1 => ?_
      rcases List.mem_append.1 hd with hd | hd
      · exact hl d hd e1 h1
      · rw [List.mem_singleton] at hd
        subst hd
        cases h1
        exact hG _ hfin

theorem streamProcessor_from (cfg : RConfig) {G : EventData → Prop} (file : List Byte) (hG : ∀ hdr e0 e, EvInv cfg file hdr (some e0) → Finished cfg e0 e → G e)
    (n : Except Err Str) (listeners : Nat) (maxRecord : Int) (st : StreamState) (i : RecordInfo) (data : List Byte) (p : Nat)
    (hv : isStreamRecord i = true) (hI : EvInv cfg file st.hdr none) (hst : HeldAt file p i data) (hl : ∀ d ∈ st.log, ∀ e, d.2 = Delivery.event e → G e) :
    ∀ d ∈ (streamProcessor cfg n listeners maxRecord st i data).1.log, ∀ e, d.2 = Delivery.event e → G e := by
  unfold streamProcessor
  split
  · split
    · exact hl
    · split
      · exact hl
      · intro d hd e he
        rcases List.mem_append.1 hd with hd | hd
        · exact hl d hd e he
        · obtain ⟨j, _, rfl⟩ := List.mem_map.1 hd
          cases he
  · rename_i hnr
    split
    · exact hl
    · rename_i plain hpl
      split
      · split
        · exact hl
        · exact hl
      · rename_i hnh
        have hn : i.name = eventRecordName := by
          unfold isStreamRecord at hv
          simp only [Bool.or_eq_true, beq_iff_eq] at hv
          rcases hv with (hv | hv) | hv
          · exact absurd hv hnr
          · exact absurd hv hnh
          · exact hv
        have hrec : Recorded cfg.codec file eventRecordName plain := ⟨p, i, data, hst, hn, hpl⟩
        split
        · exact hl
        · rename_i hdr hh
          obtain ⟨hdata, hr1, hr2⟩ := hI.hdr hdr hh
          split
          · exact hl
          · rename_i cols he
            have key := deliver_from cfg (G := G) listeners 0 st.log (hdr, cols) (hdr, cols)
              (fun e' hf => hG none _ _ ⟨(fun h hh => nomatch hh), fun e hh => by cases hh; exact ⟨hdata, plain, hr1, hr2, hrec, he⟩⟩ hf) (Or.inl rfl) hl
            split
            · rename_i log e hd
              rw [hd] at key
              exact key
            · rename_i log hd
              rw [hd] at key
              exact key

theorem readStreamLoop_from (cfg : RConfig) (hc : SafeCodec cfg.codec) {files : List (Str × List Byte)} {G} (hG : FromFiles cfg files G) (listeners : Nat) : ∀ fuel maxRecord (r : Reader), OnFile files r →
    ∀ d ∈ (r.readStreamLoop cfg listeners fuel maxRecord).1, ∀ e, d.2 = Delivery.event e → G e
  | 0, _, r, h => fun d hd => by unfold Reader.readStreamLoop at hd; cases hd
  | fuel+1, maxRecord, r, h => by
    obtain ⟨f, hfm, hfs⟩ := h.stream
    obtain ⟨n, hname⟩ := fileName_any r h
    obtain ⟨k1, k2, _, _⟩ := readRecords_any (fun (st : StreamState) i => (st, isStreamRecord i))
      (fun st i data => if isStreamRecord i then streamProcessor cfg r.fileName listeners maxRecord st i data else (st, .error .eof))
      (fun st => EvInv cfg f.2 st.hdr none ∧ ∀ d ∈ st.log, ∀ e, d.2 = Delivery.event e → G e)
      (Danger cfg f.2) (Stuck cfg f.2) f.2 (fun st i h => h) (fun st i data p hI hst h1 h2 => by
        split
        · rename_i hn
          rw [hname]
          obtain ⟨a1, a2⟩ := streamProcessor_any cfg hc f.2 n listeners maxRecord st i data p hn hI.1 hst h1 h2
          exact ⟨⟨a1, streamProcessor_from cfg f.2 (hG f hfm) (.ok n) listeners maxRecord st i data p hn hI.1 hst hI.2⟩, a2⟩
        · exact ⟨hI, (fun h => nomatch h), fun h => nomatch h⟩)
      (recordFuel r.stream) {} r.stream r.buf ⟨⟨(fun h hh => nomatch hh), fun h hh => nomatch hh⟩, fun d hd => nomatch hd⟩ hfs
    rw [← readRecords_valid isStreamRecord] at k1 k2
    unfold Reader.readStreamLoop
    split
    · rename_i st s buf he
      rw [he] at k2
      exact k2.2
    · rename_i st s buf he
      rw [he] at k1 k2
      have hon : OnFile files { r with stream := s, buf := buf } := ⟨h.list, h.index, f, hfm, k1⟩
      simp only
      split
      · rename_i hn
        obtain ⟨n1, n2⟩ := nextFile_any cfg hc _ hon hn
        split
        · exact k2.2
        · rename_i r1 hne
          rw [hne] at n1
          intro d hd e he
          rcases List.mem_append.1 hd with hd | hd
          · exact k2.2 d hd e he
          · exact readStreamLoop_from cfg hc hG listeners fuel _ r1 n1.on d hd e he
      · split
        · exact k2.2
        · exact k2.2
    · rename_i st e s buf _ he
      rw [he] at k2
      exact k2.2

theorem readStream_from (cfg : RConfig) (hc : SafeCodec cfg.codec) {files : List (Str × List Byte)} {G} (hG : FromFiles cfg files G) (r : Reader) (listeners : Nat) (maxRecord : Int) (h : OnFile files r) :
    ∀ d ∈ (r.readStream cfg listeners maxRecord).1, ∀ e, d.2 = Delivery.event e → G e :=
  readStreamLoop_from cfg hc hG listeners _ maxRecord r h

end Lcio
