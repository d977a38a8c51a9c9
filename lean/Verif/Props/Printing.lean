import Verif.Util.PrintingTidy
/-
C113: what is printed of an object does not depend on what was printed before.
-/
namespace Props
open Sio Lcio Util

theorem session_append (num : FloatText) : ∀ (before after : List Print) (f : Format),
    session num f (before ++ after) = session num f before ++ session num (f.after (before.flatMap Print.pieces)) after := by
  intro before after
  induction before with
  | nil => intro f; rfl
  | cons p before ih =>
    intro f
    simp only [List.cons_append, session, ih, List.flatMap_cons, after_append]

theorem session_tidy (num : FloatText) : ∀ (before : List Print) (f : Format), f.Plain → (∀ p ∈ before, p.tidy = true) →
    session num f before = before.map (Print.toString num) ∧ (f.after (before.flatMap Print.pieces)).Plain := by
  intro before
  induction before with
  | nil => intro f h _; exact ⟨rfl, h⟩
  | cons p before ih =>
    intro f h ht
    obtain ⟨h1, h2⟩ := ih _ (tidy_plain (ht p (by simp)) h) fun q hq => ht q (by simp [hq])
    refine ⟨?_, ?_⟩
    · simp only [session, List.map_cons, h1]
      rw [Known.steps_sound (num := num) (Known.plain_same h Format.Plain.of_fresh) (pieces_plain p)]
      rfl
    · rw [List.flatMap_cons, after_append]
      exact h2

theorem session_steady (num : FloatText) : ∀ (ps : List Print) (f : Format), (∀ p ∈ ps, p.steady = true) → session num f ps = ps.map (Print.toString num) := by
  intro ps
  induction ps with
  | nil => intro f _; rfl
  | cons q ps ih =>
    intro f h
    simp only [session, List.map_cons]
    rw [Known.steps_sound (num := num) (Known.nothing_same _ Format.fresh) (steady_known (h q (by simp))), ih _ (fun r hr => h r (by simp [hr]))]
    rfl

/-- C113, for the operators that set all parts of the format: whatever was printed before to the stream, and whatever its format was at the beginning, the text is the one of
`toString`. The property says this of all operators; `C113_fails_numbers`, `C113_fails_ids` and `C113_fails_floats` show where it is wrong. -/
theorem C113_steady_partial (num : FloatText) (f : Format) (before : List Print) (p : Print) (hp : p.steady = true) :
    (session num f (before ++ [p])).getLast? = some (p.toString num) := by
  rw [session_append]
  simp only [session, List.getLast?_append, List.getLast?_singleton, Option.some_or]
  rw [Known.steps_sound (num := num) (Known.nothing_same _ Format.fresh) (steady_known hp)]
  rfl

/-- C113, for all operators, if those used before on the stream do not change its format: every text is the one of `toString`. -/
theorem C113_tidy_partial (num : FloatText) (before : List Print) (hb : ∀ p ∈ before, p.tidy = true) (p : Print) :
    session num .fresh (before ++ [p]) = (before ++ [p]).map (Print.toString num) := by
  obtain ⟨h1, h2⟩ := session_tidy num before .fresh Format.Plain.of_fresh hb
  rw [session_append, h1]
  simp only [session, List.map_append, List.map_cons, List.map_nil]
  rw [Known.steps_sound (num := num) (Known.plain_same h2 Format.Plain.of_fresh) (pieces_plain p)]
  rfl

/-- C113: a program that prints several objects prints for each what `toString` gives if each is steady or follows tidy ones only. -/
theorem C113_programs_partial (num : FloatText) (before after : List Print) (hb : ∀ p ∈ before, p.tidy = true) (ha : ∀ p ∈ after, p.steady = true) (p : Print) :
    session num .fresh (before ++ p :: after) = (before ++ p :: after).map (Print.toString num) := by
  have h1 := C113_tidy_partial num before hb p
  rw [show before ++ p :: after = (before ++ [p]) ++ after by simp, session_append, h1, session_steady num after _ ha, ← List.map_append]

/-! ## Where it is wrong -/

/-- Texts of the number 1, as the library prints it: as `1` with the default format, as `1.000e+00` or `+1.000e+00` with three digits in `scientific` form. -/
def oneText : FloatText where
  float := fun f p plus _ => (if plus then str "+" else []) ++ (if f = .general then str "1" else str "1." ++ List.replicate p 48 ++ (if f = .fixed then [] else str "e+00"))
  double := fun f p plus _ => (if plus then str "+" else []) ++ (if f = .general then str "1" else str "1." ++ List.replicate p 48 ++ (if f = .fixed then [] else str "e+00"))

/-- An event with one collection. -/
def anEvent : Print := .eventText none 1 2 (str "ILD") 0 0x3ff0000000000000 [(str "hits", str "TrackerHit", 3)]

/-- C113 fails: after the details of an event, the stream fills up on the right, and the number 12 of an object is printed as 12000000. -/
theorem C113_fails_ids : session oneText .fresh [.objectLine 12] = [str " [00000012] "] ∧ (session oneText .fresh [anEvent, .objectLine 12])[1]? = some (str " [12000000] ") := by decide +kernel

/-- C113 fails: after the line of a flag word, the stream prints hexadecimal numbers, and 16 integers are said to be 10. -/
theorem C113_fails_numbers :
    (∃ a b, Print.toString oneText (.genericText none 1 16 0 0 [] []) = a ++ str "Number of integer values                                            16" ++ b) ∧
    (∃ a b, (session oneText .fresh [.flagLine 0, .genericText none 1 16 0 0 [] []])[1]? = some (a ++ str "Number of integer values                                            10" ++ b)) := by
  refine ⟨⟨(Print.toString oneText (.genericText none 1 16 0 0 [] [])).take 142, (Print.toString oneText (.genericText none 1 16 0 0 [] [])).drop 212, ?_⟩,
    ⟨(Print.toString oneText (.genericText none 1 16 0 0 [] [])).take 142, (Print.toString oneText (.genericText none 1 16 0 0 [] [])).drop 212, ?_⟩⟩ <;> decide +kernel

/-- A track state, and a hit in a calorimeter. -/
def aState : StateShow := ⟨7, str "AtIP", 0, 0, 0, 0, 0, (0, 0, 0), [], [0]⟩
def aHit : Print := .calHitLine 1 2 3 0x3f800000 0x3f800000 none none

/-- A particle. -/
def aParticle : ParticleShow := ⟨5, 11, (0, 0, 0), (0, 0, 0), 0, 1, simStatusText 0, (0, 0, 0), (0, 0, 0), 0, 0, [], []⟩

/-- C113 fails: after the line of a calorimeter hit, the weight of an event is printed with three digits behind the point; after the line of a track state, the number 5 of a particle is
printed as `000000+5`. -/
theorem C113_fails_floats :
    Print.toString oneText (.eventLine 1 2 (str "ILD") 0 0x3ff0000000000000) = str "|            1|            2|          ILD|            0|            1|\n" ∧
    (session oneText .fresh [aHit, .eventLine 1 2 (str "ILD") 0 0x3ff0000000000000])[1]? = some (str "|            1|            2|          ILD|            0|    1.000e+00|\n") ∧
    (Print.toString oneText (.particleLine aParticle)).take 12 = str " [00000005] " ∧
    ((session oneText .fresh [.stateLine aState, .particleLine aParticle])[1]?.map (·.take 12)) = some (str " [000000+5] ") := by decide +kernel

/-- C97 fails for the details of user objects: the number of `float` values is not printed, that of the `double` values takes its place. -/
theorem C97_fails_number_of_floats (num : FloatText) (f : Format) (col : Option Str) (id nInt nFloat nFloat' nDouble : W32) (type description : Str) :
    f.printAll num (Print.genericText col id nInt nFloat nDouble type description).pieces = f.printAll num (Print.genericText col id nInt nFloat' nDouble type description).pieces := rfl

/-- C97 fails for the numbers of objects in the details of simulated calorimeter hits and reconstructed particles: if there is a collection, the number of a hit is printed
behind its flag, so that it is never right; that of a particle is marked as hexadecimal, but is decimal. -/
theorem C97_fails_numbers_of_objects :
    (∀ flag id : W32, simCalId (some flag) id ≠ decInt id.toInt) ∧ simCalId (some 0x80000000) 12 = str "0x8000000012" ∧
    recoId 12 = str "0x" ++ hexLoop 99 18 := by
  refine ⟨?_, by decide +kernel, by decide +kernel⟩
  intro flag id h
  have := congrArg List.length h
  simp [simCalId, str] at this
  omega

/-! The hypotheses are met: a program that prints collections, objects and an event. -/
example : (∀ p ∈ [Print.colLine 3 (str "MCParticle") 0 false false false, .intVecLine 4 [1, 2, 3], .relationLine (some 1) none 0x3f800000, .runText none 1 [] []], p.tidy = true) ∧
    (∀ p ∈ [Print.stateText aState, .flagText 255, .colText (some (str "LCRelation")) 3 [] 0 false false false], p.steady = true) := by decide
example : (session oneText .fresh [.colLine 3 (str "MCParticle") 0 false false false, .intVecLine 4 [1, 2], .stateLine aState, .flagText 255]).length = 4 ∧
    (session oneText .fresh [.colLine 3 (str "MCParticle") 0 false false false, .intVecLine 4 [1, 2]])[1]? = some (str "| [00000004] |       1,        2\n") := by decide +kernel

end Props
