import Verif.Sio.TypedLemmas
import Verif.Spec.Calls
/-
C01-C06, C10: arrays, strings, vectors and pointer slots on SIO devices.
-/
namespace Props
open Sio Spec

/-- **C01**. An array of `size`-byte elements written at the cursor of a write device (any buffer content,
any cursor inside the buffer), followed by any other writes, is read back exactly from the position it was
written at, and the reader's cursor ends where the writer's was. -/
theorem C01_array_round_trip (d : WDev) (size : Nat) (vals : List Nat) (hc : d.cur ≤ d.buf.length)
    (hsz : size * vals.length + 3 < 2 ^ 32) (hv : ∀ v ∈ vals, v < 256 ^ size)
    (later : List Item) (hl : ∀ i ∈ later, fits i) :
    ∃ d1 d2, d.data size vals = .ok d1 ∧ d1.run later = .ok d2 ∧
      ∀ r : RDev, r.buf = d2.buf → r.cur = d.cur →
        ∃ r', r.data size vals.length = .ok (vals, r') ∧ r'.cur = d1.cur := by
  obtain ⟨d1, d2, h1, h2, h3⟩ := run_then_read (.arr size vals.length fun l => .ret l) [.arr size vals] vals
    (by simp [isRef]) (by simpa [fits] using hsz)
    (by
      intro n
      have hm : vals.map (· % 256 ^ size) = vals := by
        have : ∀ l : List Nat, (∀ v ∈ l, v < 256 ^ size) → l.map (· % 256 ^ size) = l := by
          intro l hl'
          induction l with
          | nil => rfl
          | cons a l ih =>
            simp only [List.map_cons]
            rw [Nat.mod_eq_of_lt (hl' a (by simp)), ih (fun v hv => hl' v (by simp [hv]))]
        exact this vals hv
      simp [RProg.runI, hm])
    d hc later hl
  refine ⟨d1, d2, ?_, h2, ?_⟩
  · simp only [WDev.run, WDev.step] at h1
    split at h1
    · cases h1
    · rename_i d' hd; cases h1; exact hd
  · intro r hb hcur
    obtain ⟨r', hr, hc', _⟩ := h3 r hb hcur
    refine ⟨r', ?_, hc'⟩
    simp only [RProg.run] at hr
    split at hr
    · cases hr
    · rename_i vs d' hd
      cases hr
      exact hd

example : ∃ d : WDev, d.cur ≤ d.buf.length ∧ 2 * [513, 65535, 7].length + 3 < 2 ^ 32 ∧ (∀ v ∈ [513, 65535, 7], v < 256 ^ 2) ∧
    d.data 2 [513, 65535, 7] = .ok { d with buf := [9, 2, 1, 255, 255, 0, 7, 0, 0, 0, 0, 0, 0, 0, 0, 0], cur := 9 } := by
  refine ⟨{ buf := [9, 8, 7, 6, 5, 4, 3, 2], cur := 1 }, ?_⟩
  decide

/-- **C02**, bytes: what an array write appends at the cursor is the big-endian zero-padded form `wireArray`,
and the cursor advances by exactly its length. -/
theorem C02_wire_format (d : WDev) (size : Nat) (vals : List Nat) (hc : d.cur ≤ d.buf.length)
    (hsz : size * vals.length + 3 < 2 ^ 32) :
    ∃ d', d.data size vals = .ok d' ∧ d'.cur = d.cur + (wireArray size vals).length ∧
      (d'.buf.drop d.cur).take (d'.cur - d.cur) = wireArray size vals ∧ d'.buf.take d.cur = d.buf.take d.cur := by
  refine ⟨_, WDev.data_eq d size vals hc hsz, rfl, ?_, ?_⟩
  · dsimp only
    rw [List.append_assoc, List.drop_left' (by simp; omega), Nat.add_sub_cancel_left, List.take_left]
  · dsimp only
    rw [List.append_assoc, List.take_left' (by simp; omega)]

theorem itemLen_mod4 (i : Item) : itemLen i % 4 = 0 := by
  cases i with
  | arr s v => simp only [itemLen, itemBytes, wireArray_length, padding]; omega
  | ptr a => rw [itemLen_ptr]
  | tag a => rw [itemLen_tag]
  | bad => rfl

theorem sum_itemLen_mod4 (is : List Item) : (is.map itemLen).sum % 4 = 0 := by
  induction is with
  | nil => rfl
  | cons i is ih => simp only [List.map_cons, List.sum_cons]; have := itemLen_mod4 i; omega

/-- **C02**, alignment: a device at a multiple of four is at a multiple of four after any sequence of
writes. -/
theorem C02_alignment (d d' : WDev) (is : List Item) (hc : d.cur ≤ d.buf.length) (hf : ∀ i ∈ is, fits i)
    (ha : d.cur % 4 = 0) (hr : d.run is = .ok d') : d'.cur % 4 = 0 := by
  obtain ⟨d1, h1, hcur, _⟩ := WDev.run_eq d is hc hf
  rw [h1] at hr; cases hr
  rw [hcur, bytesOf_length]
  have := sum_itemLen_mod4 is
  omega

example : wireArray 2 [513, 65535, 7] = [2, 1, 255, 255, 0, 7, 0, 0] := by decide

/-- **C03**. Any sequence of writing calls on arrays below 4 GiB and seeks (throwing or not) completes without
leaving the buffer, the buffer never shrinks, the cursor stays inside it, and every byte outside the ranges
that were written keeps its value. -/
theorem C03_write_memory_safe (d : WDev) (hc : d.cur ≤ d.buf.length) (cs : List Call)
    (hf : ∀ i, Call.item i ∈ cs → fits i) :
    ∃ d' ranges, perform d cs = .ok (d', ranges) ∧ d'.cur ≤ d'.buf.length ∧ d.buf.length ≤ d'.buf.length ∧
      ∀ j, j < d.buf.length → (∀ r ∈ ranges, ¬ (r.1 ≤ j ∧ j < r.1 + r.2)) → d'.buf[j]? = d.buf[j]? := by
  induction cs generalizing d with
  | nil => exact ⟨d, [], rfl, hc, Nat.le_refl _, fun _ _ _ => rfl⟩
  | cons c cs ih =>
    cases c with
    | seek p =>
      simp only [perform]
      unfold WDev.seek
      split
      · rename_i d' h
        split at h
        · cases h
        · cases h
          obtain ⟨d', rs, h1, h2, h3, h4⟩ := ih { d with cur := p } (by dsimp only; omega) (fun i hi => hf i (by simp [hi]))
          exact ⟨d', rs, h1, h2, h3, h4⟩
      · exact ih d hc (fun i hi => hf i (by simp [hi]))
    | item i =>
      obtain ⟨d1, h1, hcur1, hle1, hlen1, ht1, hfr1, _, _⟩ := WDev.run_eq d [i] hc (by intro j hj; simp at hj; subst hj; exact hf j (by simp))
      have hs : d.step i = .ok d1 := by
        simp only [WDev.run] at h1
        split at h1
        · cases h1
        · rename_i d' hd; cases h1; exact hd
      obtain ⟨d', rs, h2, h3, h4, h5⟩ := ih d1 hle1 (fun i hi => hf i (by simp [hi]))
      refine ⟨d', (d.cur, d1.cur - d.cur) :: rs, ?_, h3, by omega, ?_⟩
      · simp only [perform, hs, h2]
      · intro j hj hrs
        rw [h5 j (by omega) (fun r hr => hrs r (by simp [hr]))]
        have hj' := hrs (d.cur, d1.cur - d.cur) (by simp)
        simp only at hj'
        by_cases hlt : j < d.cur
        · have e1 : (d1.buf.take d1.cur)[j]? = d1.buf[j]? := by rw [List.getElem?_take_of_lt (by omega)]
          rw [← e1, ht1, List.getElem?_append_left (by simp; omega), List.getElem?_take_of_lt hlt]
        · exact hfr1 j (by omega) hj

example : ∃ d' rs, perform { buf := [1, 2, 3] } [.item (.arr 1 [9]), .seek 99, .seek 2, .item (.tag 5)] = .ok (d', rs) ∧
    rs = [(0, 4), (2, 4)] := by
  refine ⟨_, _, rfl, rfl⟩

/-- **C04**, for requests below 2^32-3 bytes: on any buffer a read either throws or returns data that lies
inside the buffer, namely the elements stored there. -/
theorem C04_read_in_bounds_partial (d : RDev) (size count : Nat) (hsz : size * count + 3 < 2 ^ 32) :
    (∃ vs d', d.data size count = .ok (vs, d') ∧ d.cur + size * count ≤ d.buf.length ∧ d'.cur ≤ d.buf.length ∧ vs.length = count) ∨
      d.data size count = .error .invalidArgument := by
  have hp := padLen_ge _ hsz
  unfold RDev.data apiRead
  simp only
  by_cases h1 : d.cur + padLen (size * count) > d.buf.length
  · right; simp [h1]
  · left
    rw [if_neg h1, if_neg (by omega)]
    refine ⟨_, _, rfl, by omega, by dsimp only; omega, ?_⟩
    generalize reverseCopy _ _ _ _ _ _ = im
    clear h1 hp hsz
    induction count generalizing im with
    | zero => rfl
    | succ c ih => simp [ofImage, ih]

/-- **C04** fails without the size bound: a request of 2^32-1 bytes passes the check on any buffer, because
the padded length is masked to 32 bits, and the copy leaves the buffer. -/
theorem C04_fails_for_huge_requests (d : RDev) (h : d.buf.length < 2 ^ 32 - 1) (hc : d.cur ≤ d.buf.length) :
    d.data 1 (2 ^ 32 - 1) = .error .ub := by
  unfold RDev.data apiRead
  have : padLen (1 * (2 ^ 32 - 1)) = 0 := by decide
  simp only [this]
  rw [if_neg (by omega), if_pos (by omega)]

example : (RDev.mk [0, 1, 2, 3, 4, 5, 6, 7] 0 [] [] [] 1).data 2 3 = .ok ([1, 515, 1029], { buf := [0, 1, 2, 3, 4, 5, 6, 7], cur := 8 }) ∧
    (RDev.mk [0, 1, 2, 3, 4, 5, 6, 7] 4 [] [] [] 1).data 4 2 = .error .invalidArgument := by decide

/-- **C05**. A string of fewer than 2^31 bytes, written anywhere in a buffer and followed by any other
writes, is read back identically. -/
theorem C05_string_round_trip (d : WDev) (s : List Byte) (hc : d.cur ≤ d.buf.length) (hs : s.length < 2 ^ 31)
    (later : List Item) (hl : ∀ i ∈ later, fits i) :
    ∃ d1 d2, d.run (wStr s) = .ok d1 ∧ d1.run later = .ok d2 ∧
      ∀ r : RDev, r.buf = d2.buf → r.cur = d.cur → ∃ r', rStr.run r = .ok (s, r') ∧ r'.cur = d1.cur := by
  obtain ⟨d1, d2, h1, h2, h3⟩ := run_then_read rStr (wStr s) s
    (by simp [wStr, hs, w32, w8s, isRef]) (by simp [wStr, hs, w32, w8s, fits]; omega)
    (fun n => runI_rStr _ s hs [] n []) d hc later hl
  exact ⟨d1, d2, h1, h2, fun r hb hcur => let ⟨r', a, b, _⟩ := h3 r hb hcur; ⟨r', a, b⟩⟩

example : (WDev.mk [7] 1 [] []).run (wStr [97, 0, 98]) =
    .ok { buf := [7, 0, 0, 0, 3, 97, 0, 98, 0, 0], cur := 9 } := by decide

/-- **C06** for non-empty vectors of 4-byte numbers, or a target that was empty before. What is missing: an
empty vector read into a non-empty target, where the property fails (`C06_fails_for_empty_vector`). -/
theorem C06_vector32_partial (d : WDev) (vs old : List W32) (hc : d.cur ≤ d.buf.length) (hs : 4 * vs.length + 3 < 2 ^ 32)
    (hne : vs ≠ [] ∨ old = []) (later : List Item) (hl : ∀ i ∈ later, fits i) :
    ∃ d1 d2, d.run (wVec32 vs) = .ok d1 ∧ d1.run later = .ok d2 ∧
      ∀ r : RDev, r.buf = d2.buf → r.cur = d.cur → ∃ r', (rVec32 old).run r = .ok (vs, r') ∧ r'.cur = d1.cur := by
  obtain ⟨d1, d2, h1, h2, h3⟩ := run_then_read (rVec32 old) (wVec32 vs) vs
    (by cases vs <;> simp [wVec32, w32, w32s, isRef]) (by cases vs <;> simp_all [wVec32, w32, w32s, fits])
    (fun n => by
      rw [runI_rVec32 _ old vs (by omega) [] n []]
      cases vs with
      | nil => simp at hne; simp [hne]
      | cons => rfl) d hc later hl
  exact ⟨d1, d2, h1, h2, fun r hb hcur => let ⟨r', a, b, _⟩ := h3 r hb hcur; ⟨r', a, b⟩⟩

/-- **C06** for non-empty vectors of 8-byte numbers, see `C06_vector32_partial`. -/
theorem C06_vector64_partial (d : WDev) (vs old : List W64) (hc : d.cur ≤ d.buf.length) (hs : 8 * vs.length + 3 < 2 ^ 32)
    (hne : vs ≠ [] ∨ old = []) (later : List Item) (hl : ∀ i ∈ later, fits i) :
    ∃ d1 d2, d.run (wVec64 vs) = .ok d1 ∧ d1.run later = .ok d2 ∧
      ∀ r : RDev, r.buf = d2.buf → r.cur = d.cur → ∃ r', (rVec64 old).run r = .ok (vs, r') ∧ r'.cur = d1.cur := by
  obtain ⟨d1, d2, h1, h2, h3⟩ := run_then_read (rVec64 old) (wVec64 vs) vs
    (by cases vs <;> simp [wVec64, w32, w64s, isRef]) (by cases vs <;> simp_all [wVec64, w32, w64s, fits])
    (fun n => by
      rw [runI_rVec64 _ old vs (by omega) [] n []]
      cases vs with
      | nil => simp at hne; simp [hne]
      | cons => rfl) d hc later hl
  exact ⟨d1, d2, h1, h2, fun r hb hcur => let ⟨r', a, b, _⟩ := h3 r hb hcur; ⟨r', a, b⟩⟩

/-- **C06** for non-empty vectors of strings, see `C06_vector32_partial`. -/
theorem C06_vectorString_partial (d : WDev) (vs old : List (List Byte)) (hc : d.cur ≤ d.buf.length) (hs : vs.length < 2 ^ 31)
    (hss : ∀ s ∈ vs, s.length < 2 ^ 31)
    (hne : vs ≠ [] ∨ old = []) (later : List Item) (hl : ∀ i ∈ later, fits i) :
    ∃ d1 d2, d.run (wVecStr vs) = .ok d1 ∧ d1.run later = .ok d2 ∧
      ∀ r : RDev, r.buf = d2.buf → r.cur = d.cur → ∃ r', (rVecStr old).run r = .ok (vs, r') ∧ r'.cur = d1.cur := by
  have hitems : ∀ i ∈ wVecStr vs, isRef i = false ∧ fits i := by
    intro i hi
    simp only [wVecStr, w32, List.cons_append, List.nil_append, List.mem_cons, List.mem_flatMap] at hi
    rcases hi with rfl | ⟨s, hs', hi⟩
    · simp [isRef, fits]
    · have := hss s hs'
      simp only [wStr, if_pos this, w32, w8s, List.cons_append, List.nil_append, List.mem_cons, List.not_mem_nil, or_false] at hi
      rcases hi with rfl | rfl
      · simp [isRef, fits]
      · simp [isRef, fits]; omega
  obtain ⟨d1, d2, h1, h2, h3⟩ := run_then_read (rVecStr old) (wVecStr vs) vs
    (fun i hi => (hitems i hi).1) (fun i hi => (hitems i hi).2)
    (fun n => by
      rw [runI_rVecStr _ old vs hs hss [] n []]
      cases vs with
      | nil => simp at hne; simp [hne]
      | cons => rfl) d hc later hl
  exact ⟨d1, d2, h1, h2, fun r hb hcur => let ⟨r', a, b, _⟩ := h3 r hb hcur; ⟨r', a, b⟩⟩

/-- **C06** fails for an empty vector: whatever the target held before the read is still there after it. -/
theorem C06_fails_for_empty_vector (d : WDev) (old : List W32) (hc : d.cur ≤ d.buf.length) :
    ∃ d1, d.run (wVec32 []) = .ok d1 ∧
      ∀ r : RDev, r.buf = d1.buf → r.cur = d.cur → ∃ r', (rVec32 old).run r = .ok (old, r') := by
  obtain ⟨d1, d2, h1, h2, h3⟩ := run_then_read (rVec32 old) (wVec32 []) old
    (by simp [wVec32, w32, isRef]) (by simp [wVec32, w32, fits])
    (fun n => by rw [runI_rVec32 _ old [] (by simp) [] n []]; rfl) d hc [] (by simp)
  cases h2
  exact ⟨d1, h1, fun r hb hcur => let ⟨r', a, _, _⟩ := h3 r hb hcur; ⟨r', a⟩⟩

example : ∃ d1 r', (WDev.mk [0] 0 [] []).run (wVec32 []) = .ok d1 ∧ (rVec32 [5, 6]).run { buf := d1.buf } = .ok ([5, 6], r') := by
  exact ⟨_, _, rfl, rfl⟩
example : ∃ d1 r', (WDev.mk [0] 0 [] []).run (wVecStr [[97], [], [98, 99]]) = .ok d1 ∧
    (rVecStr [[1]]).run { buf := d1.buf } = .ok ([[97], [], [98, 99]], r') := by
  exact ⟨_, _, rfl, rfl⟩

end Props
