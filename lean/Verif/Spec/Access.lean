import Verif.Lcio.Access
import Verif.Spec.Setters
/-
Which calls are guarded by the access mode.
-/
namespace Spec
open Sio Lcio

/-- The member functions of elements that look at the access mode. -/
def guarded : ObjSetter → Bool
  | .mcParticle s => !mCParticleUnchecked s
  | .tpcHit s => !tPCHitUnchecked s
  | .trackerHitPlane s => !trackerHitPlaneUnchecked s
  | .trackerHitZCylinder s => !trackerHitZCylinderUnchecked s
  | .track s => !trackUnchecked s
  | .cluster s => !clusterUnchecked s
  | .recoParticle s => !recoParticleUnchecked s
  | .relation _ | .generic _ | .strVec _ | .floatVec _ | .intVec _ | .trackState _ _ | .particleID _ _ => false
  | _ => true

/-- The compiler allows the call on the object. -/
def Callable (o : Obj) (s : ObjSetter) : Prop := ∃ (std : Std Pid) (r : Except Err Obj), o.change std false s = some r

/-- A call on the event, on one of its collections, or on an element of one of its collections, of a member function that looks at the access mode. -/
def Guarded (m : Live) : LiveCall → Prop
  | .event s => eventHeaderUnchecked s = false
  | .add _ _ => False
  | .remove _ => True
  | .collection c s => (∃ n, (n, c) ∈ m.event.colMap) ∧ (m.cols c).isSome ∧ colObjUnchecked s = false
  | .element a s => guarded s = true ∧ ∃ n c k, (n, c) ∈ m.event.colMap ∧ m.cols c = some k ∧ a ∈ k.1.elems ∧
      ∃ o, m.objs a = some o ∧ Callable o.1 s

end Spec
