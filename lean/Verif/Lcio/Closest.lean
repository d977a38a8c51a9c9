import Verif.Lcio.Build
import Verif.Lcio.Float
/-
The state of a track that is closest to a point.
-/
namespace Lcio
open Sio

/-- The arithmetic that `TrackImpl::getClosestTrackState` uses: `x - y` of `float`s, `pow( x , 2 )` (a `double`, C++11 26.8/11), the sum of `double`s, and the
conversion to `float`. They are parameters: nothing is assumed of their rounding. -/
structure DistArith where
  sub : W32 → W32 → W32
  pow2 : W32 → W64
  add : W64 → W64 → W64
  narrow : W64 → W32

/-- The square of the distance between a point and a reference point as it is computed in src/cpp/src/IMPL/TrackImpl.cc:137 and 142. The reference point
is an array with three elements (src/cpp/include/IMPL/TrackStateImpl.h:108); elements missing in the list are taken to be zero. -/
def distSquare (A : DistArith) (x y z : W32) (ref : List W32) : W32 :=
  A.narrow (A.add (A.add (A.pow2 (A.sub x (ref[0]?.getD 0))) (A.pow2 (A.sub y (ref[1]?.getD 0)))) (A.pow2 (A.sub z (ref[2]?.getD 0))))

/-- The loop of `TrackImpl::getClosestTrackState`, TrackImpl.cc:140-147. `c` is `closest`, `d` is `shortest_distance_square`. -/
def closestLoop (A : DistArith) (x y z : W32) (c : Nat) (d : W32) : List (Nat × TrackState) → Nat
  | [] => c
  | s :: rest =>
    if fltGt d (distSquare A x y z s.2.reference) then closestLoop A x y z s.1 (distSquare A x y z s.2.reference) rest
    else closestLoop A x y z c d rest

/-- `TrackImpl::getClosestTrackState`, TrackImpl.cc:134-149: the address of the state. The first element of the vector is used without a check. -/
def TrackObj.getClosestTrackState (A : DistArith) (t : TrackObj) (x y z : W32) : Except Err Nat :=
  match t.states with
  | [] => .error .ub
  | s :: rest => .ok (closestLoop A x y z s.1 (distSquare A x y z s.2.reference) rest)

end Lcio
