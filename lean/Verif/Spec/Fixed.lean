import Verif.Lcio.Fixed
/-
Specification vocabulary for objects with a fixed number of values.
-/
namespace Spec
open Sio Lcio

/-- The value of integer i after a setter. -/
def afterInt (i : Nat) (v : W32) (s : Generic.Setter) : W32 := match s with | .setIntVal j w => if j.toNat = i then w else v | _ => v

/-- The value that an integer was last set to, 0 if it never was. -/
def lastInt (i : Nat) (sets : List Generic.Setter) : W32 := sets.foldl (afterInt i) 0

/-- The value of float i after a setter. -/
def afterFloat (i : Nat) (v : W32) (s : Generic.Setter) : W32 := match s with | .setFloatVal j w => if j.toNat = i then w else v | _ => v

/-- The same for floats. -/
def lastFloat (i : Nat) (sets : List Generic.Setter) : W32 := sets.foldl (afterFloat i) 0

/-- The value of double i after a setter. -/
def afterDouble (i : Nat) (v : W64) (s : Generic.Setter) : W64 := match s with | .setDoubleVal j w => if j.toNat = i then w else v | _ => v

/-- The same for doubles. -/
def lastDouble (i : Nat) (sets : List Generic.Setter) : W64 := sets.foldl (afterDouble i) 0

/-- The class has the value that is set. -/
def HasValue (K : FixedClass) : Generic.Setter → Prop
  | .setIntVal j _ => j.toNat < K.nInt
  | .setFloatVal j _ => j.toNat < K.nFloat
  | .setDoubleVal j _ => j.toNat < K.nDouble

/-- An object has the sizes of the class. -/
def HasSizes (K : FixedClass) (g : Generic) : Prop := g.ints.length = K.nInt ∧ g.floats.length = K.nFloat ∧ g.doubles.length = K.nDouble

/-- The description of data with these names: `i:a,f:b,d:c`. -/
def description (ints floats doubles : List Str) : Str :=
  (List.intersperse (str ",") (ints.map (str "i:" ++ ·) ++ floats.map (str "f:" ++ ·) ++ doubles.map (str "d:" ++ ·))).flatten

end Spec
