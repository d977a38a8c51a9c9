import Verif.Sio.SpanLemmas
/-
C104: views of bytes.
-/
namespace Props
open Sio Spec

/-- C104, for all calls whose sum of start and length is a `std::size_t`: on a buffer of less than 2^63 bytes, parts of parts of … the buffer either show exactly the bytes that were asked for, or
the exception is thrown because they are not all there. -/
theorem C104_partial (buf : List Byte) (hbuf : buf.length < 2 ^ 63) (cs : List SpanCall) (hcs : ∀ c ∈ cs, NoWrap c) :
    (∀ l, partsOf buf cs = .ok l → ∃ s, (Span.whole buf).calls cs = .ok s ∧ ViewOf s l) ∧
      ∀ e, partsOf buf cs = .error e → (Span.whole buf).calls cs = .error e := by
  have h := calls_slice buf hbuf cs 0 buf.length (by omega) hcs
  rw [← whole_eq, bytesIn_whole] at h
  refine ⟨fun l hl => ?_, fun e he => ?_⟩
  · rcases h with ⟨e, _, h2⟩ | ⟨a, n, ha, h1, h2⟩
    · rw [h2] at hl; cases hl
    · rw [h2] at hl
      obtain rfl := Except.ok.inj hl
      exact ⟨_, h1, viewOf_slice buf hbuf a n ha⟩
  · rcases h with ⟨e', h1, h2⟩ | ⟨a, n, ha, h1, h2⟩
    · rw [h2] at he
      rw [h1, Except.error.inj he]
    · rw [h2] at he; cases he

/-- The only exception is `out_of_range`, and it is thrown just if some part is not within the one before. -/
theorem C104_error (buf : List Byte) (cs : List SpanCall) (e : Err) (h : partsOf buf cs = .error e) : e = .outOfRange := by
  induction cs generalizing buf with
  | nil => cases h
  | cons c cs ih =>
    simp only [partsOf] at h
    cases hp : partOf buf c with
    | ok l => rw [hp] at h; exact ih l h
    | error e' =>
      rw [hp] at h
      obtain rfl := Except.error.inj h
      cases c with
      | «from» i =>
        simp only [partOf] at hp
        by_cases hi : i.toNat ≤ buf.length
        · rw [if_pos hi] at hp; cases hp
        · rw [if_neg hi] at hp; exact (Except.error.inj hp).symm
      | part i n =>
        simp only [partOf] at hp
        by_cases hi : i.toNat + n.toNat ≤ buf.length
        · rw [if_pos hi] at hp; cases hp
        · rw [if_neg hi] at hp; exact (Except.error.inj hp).symm

/-- Three nested views of a buffer of five bytes, and one that is not within the one before. -/
example : partsOf [1, 2, 3, 4, 5] [.from 1, .part 1 3, .part 1 1] = .ok [4] ∧ partsOf [1, 2, 3, 4, 5] [.from 1, .part 1 4] = .error .outOfRange ∧
    ∀ c ∈ [SpanCall.from 1, .part 1 3, .part 1 1], NoWrap c := by
  refine ⟨by decide, by decide, ?_⟩
  intro c hc
  simp only [List.mem_cons, List.not_mem_nil, or_false] at hc
  rcases hc with rfl | rfl | rfl <;> simp [NoWrap]

/-- The calls with which records and blocks are read have numbers of 32 bits: what `spanOf` of the model of the file says is what the code does. -/
theorem C104_records (buf : List Byte) (hbuf : buf.length < 2 ^ 63) (start count : Nat) (hs : start < 2 ^ 32) (hc : count < 2 ^ 32) :
    (∀ l, spanOf buf start count = .ok l → ∃ s, (Span.whole buf).part (BitVec.ofNat 64 start) (BitVec.ofNat 64 count) = .ok s ∧ ViewOf s l) ∧
      ∀ e, spanOf buf start count = .error e → (Span.whole buf).part (BitVec.ofNat 64 start) (BitVec.ofNat 64 count) = .error e := by
  have h1 : (BitVec.ofNat 64 start).toNat = start := by rw [BitVec.toNat_ofNat]; omega
  have h2 : (BitVec.ofNat 64 count).toNat = count := by rw [BitVec.toNat_ofNat]; omega
  have hw : start + count < 2 ^ 64 := by omega
  have := C104_partial buf hbuf [.part (BitVec.ofNat 64 start) (BitVec.ofNat 64 count)]
    (by intro c hc'; obtain rfl := List.mem_singleton.1 hc'; simp only [NoWrap, h1, h2]; exact hw)
  have hp : partsOf buf [.part (BitVec.ofNat 64 start) (BitVec.ofNat 64 count)] = spanOf buf start count := by
    simp only [partsOf, partOf, h1, h2, spanOf]
    by_cases h : start + count ≤ buf.length
    · rw [if_pos h, if_neg (by omega)]
    · rw [if_neg h, if_pos (by omega)]
  have hq : (Span.whole buf).calls [.part (BitVec.ofNat 64 start) (BitVec.ofNat 64 count)] =
      (Span.whole buf).part (BitVec.ofNat 64 start) (BitVec.ofNat 64 count) := by
    simp only [Span.calls]
    cases (Span.whole buf).part (BitVec.ofNat 64 start) (BitVec.ofNat 64 count) <;> rfl
  rw [hp, hq] at this
  exact this

/-- Not all calls: the sum of start and length can wrap around. From any place but the first in any buffer one gets a view that is larger than the buffer, no exception is thrown, and `at`, which
is to check the range, reads behind the end of the memory. -/
theorem C104_fails_for_large_sums (buf : List Byte) (hbuf : buf.length < 2 ^ 63) (start : Nat) (h0 : 0 < start) (hs : start ≤ buf.length) :
    ∃ s, (Span.whole buf).part (BitVec.ofNat 64 start) (BitVec.ofNat 64 (2 ^ 64 - start)) = .ok s ∧ buf.length < s.size.toNat ∧
      s.at (BitVec.ofNat 64 (buf.length - start)) = .error .ub := by
  have h1 : (BitVec.ofNat 64 start).toNat = start := by rw [BitVec.toNat_ofNat]; omega
  have hsum : BitVec.ofNat 64 start + BitVec.ofNat 64 (2 ^ 64 - start) = 0#64 := by
    apply BitVec.eq_of_toNat_eq
    rw [BitVec.toNat_add, BitVec.toNat_ofNat, BitVec.toNat_ofNat]
    simp only [BitVec.toNat_ofNat]
    omega
  have hsize : (Span.mk buf (start : Int) 0 false).size.toNat = 2 ^ 64 - start := by
    simp only [Span.size, Bool.false_eq_true, if_false, BitVec.toNat_ofInt]
    omega
  refine ⟨⟨buf, start, 0, false⟩, ?_, by omega, ?_⟩
  · unfold Span.part
    rw [hsum, if_neg (by simp [GT.gt, BitVec.lt_def])]
    simp only [Span.whole]
    have ha := nextIter_slice buf 0 (BitVec.ofNat 64 start) (by omega) hbuf
    have hb := nextIter_slice buf 0 0#64 (by simp) hbuf
    simp only [h1, Nat.zero_add, BitVec.toNat_zero, Int.natCast_zero] at ha hb
    rw [ha, hb]
  · have h2 : (BitVec.ofNat 64 (buf.length - start)).toNat = buf.length - start := by rw [BitVec.toNat_ofNat]; omega
    unfold Span.at
    rw [if_neg (by rw [BitVec.le_def, hsize, h2]; omega)]
    show Span.deref _ ((start : Int) + (BitVec.ofNat 64 (buf.length - start)).toNat) = _
    rw [h2, show (start : Int) + (buf.length - start : Nat) = ((buf.length : Nat) : Int) by omega]
    simp [Span.deref]

/-- A view of the part from the start of an invalid view (one that was made without bytes) says that it is valid. -/
theorem C104_fails_for_invalid : Span.none.valid = false ∧ ∃ s, Span.none.from 0 = .ok s ∧ s.valid = true := by
  refine ⟨rfl, ⟨[], 0, 0, false⟩, by decide, rfl⟩

/-- `dump` prints all bytes if the limit is the default, for all lengths of lines but zero. -/
theorem C104_dump (buf : List Byte) (hbuf : buf.length < 2 ^ 63) (split : BitVec 32) (hsplit : split ≠ 0) :
    ∃ out, (Span.whole buf).dump split (BitVec.allOnes 64) = .ok out ∧ numbersOf out = buf.map fun b => b.toBitVec.toInt := by
  have hv := viewOf_slice buf hbuf 0 buf.length (by omega)
  rw [bytesIn_whole, ← whole_eq] at hv
  have h1 : (BitVec.allOnes 64).toNat = 2 ^ 64 - 1 := by simp
  obtain ⟨out, ho, hn⟩ := dumpLoop_numbers _ _ hv hbuf split hsplit (BitVec.allOnes 64) buf.length 0 (by omega) (by omega) (by omega)
  refine ⟨out ++ [.newline], ?_, ?_⟩
  · unfold Span.dump
    rw [hv.size]
    rw [show (0 : BitVec 64) = BitVec.ofNat 64 0 from rfl, ho]
  · rw [numbersOf_append, hn, List.drop_zero, List.take_of_length_le (by omega)]
    simp [numbersOf]

/-- But with a limit it prints two bytes more than the limit, in every buffer that has as many. -/
theorem C104_fails_for_dump_limit (buf : List Byte) (hbuf : buf.length < 2 ^ 63) (split : BitVec 32) (hsplit : split ≠ 0) (limit : BitVec 64) (hl : limit.toNat + 2 ≤ buf.length) :
    ∃ out, (Span.whole buf).dump split limit = .ok out ∧ (numbersOf out).length = limit.toNat + 2 := by
  have hv := viewOf_slice buf hbuf 0 buf.length (by omega)
  rw [bytesIn_whole, ← whole_eq] at hv
  obtain ⟨out, ho, hn⟩ := dumpLoop_numbers _ _ hv hbuf split hsplit limit buf.length 0 (by omega) (by omega) (by omega)
  refine ⟨out ++ [.newline], ?_, ?_⟩
  · unfold Span.dump
    rw [hv.size]
    rw [show (0 : BitVec 64) = BitVec.ofNat 64 0 from rfl, ho]
  · rw [numbersOf_append, hn]
    simp [numbersOf]; omega

/-- With `line_split` 0 it is undefined as soon as there are two bytes. -/
theorem C104_fails_for_dump_without_split : (Span.whole [1, 2]).dump 0 (BitVec.allOnes 64) = .error .ub := by decide

example : (Span.whole [1, 2, 3, 255]).dump 2 1 = .ok [.num 1, .num 2, .num 3, .newline, .newline] := by decide

end Props
