import Verif.Util.Split
/-
Specification vocabulary: files that are written one after the other with a limit on their sizes.
-/
namespace Spec
open Sio Lcio Util

/-- Write one after the other with a split writer. -/
def splitPuts (codec : Codec) (std : Std Pid) (compress : Bool) : SplitWriter → List Put → Except Err SplitWriter
  | s, [] => .ok s
  | s, p :: ps => match s.put codec std compress p with
    | (.error e, _) => .error e
    | (.ok (), s) => splitPuts codec std compress s ps

/-- `open`, write, and `close`. -/
def splitSession (codec : Codec) (std : Std Pid) (compress : Bool) (s : SplitWriter) (name : Str) (ps : List Put) : Except Err SplitWriter :=
  match s.open name with
  | (.error e, _) => .error e
  | (.ok (), s) => match splitPuts codec std compress s ps with
    | .error e => .error e
    | .ok s => match s.close with
      | (.error e, _) => .error e
      | (.ok (), s) => .ok s

/-- A call of a split writer. -/
inductive SplitCall where
  | open (name : Str)
  | put (p : Put)
  | close

/-- The split writer after some calls, of which some may have thrown. -/
def splitCalls (codec : Codec) (std : Std Pid) (compress : Bool) : SplitWriter → List SplitCall → SplitWriter
  | s, [] => s
  | s, .open name :: cs => splitCalls codec std compress (s.open name).2 cs
  | s, .put p :: cs => splitCalls codec std compress (s.put codec std compress p).2 cs
  | s, .close :: cs => splitCalls codec std compress s.close.2 cs

/-- How many bytes are in a file when a new writer has created it and written some things, before it is closed. -/
def bytesWith (codec : Codec) (std : Std Pid) (compress : Bool) (l : List Put) : Nat :=
  match ({} : Writer).openNew with
  | .error _ => 0
  | .ok w => match putAll codec std compress w l with
    | .error _ => 0
    | .ok w => (w.stream.map fun o => o.bytes.length).getD 0

/-- How things should be distributed: `cur` is already in the current file. The next thing goes in a new file exactly if the size of the current one exceeds the limit. -/
def distribute (size : List Put → Nat) (limit : Int) (cur : List Put) : List Put → List (List Put)
  | [] => [cur]
  | p :: ps => if limit < size cur then cur :: distribute size limit [p] ps else distribute size limit (cur ++ [p]) ps

/-- A decimal digit. -/
def IsDec (c : Byte) : Prop := 48 ≤ c.toNat ∧ c.toNat ≤ 57
/-- The value of a decimal number. -/
def decValue (s : Str) : Nat := s.foldl (fun v c => 10 * v + (c.toNat - 48)) 0

/-- The text is the number with three digits, or with as many as needed if there are more. -/
structure IsNumber (s : Str) (n : Nat) : Prop where
  digits : ∀ c ∈ s, IsDec c
  value : decValue s = n
  three : 3 ≤ s.length
  short : 3 < s.length → s.head? ≠ some 48

/-- The name of a file with a number. -/
def IsPart (base : Str) (n : Nat) (name : Str) : Prop := ∃ d, IsNumber d n ∧ name = base ++ str "." ++ d ++ str ".slcio"

end Spec
