import Verif.Lcio.Memory
/-
The list of names an event gives to programs: `getCollectionNames` returns a pointer to a vector in the event, which every further call fills again.
-/
namespace Lcio
open Sio

/-- `IMPL::LCEventImpl`, src/cpp/include/IMPL/LCEventImpl.h:178-199, with `_colNames`, the vector of names that programs were given. -/
structure NamedEvent where
  ev : EventObj := {}
  colNames : List Str := []
  deriving DecidableEq

/-- One call. `getCollectionNames`, src/cpp/src/IMPL/LCEventImpl.cc:60-67, clears `_colNames` and fills it; it is also called when the event is written
(src/cpp/src/SIO/LCIORecords.cc:51, SIOEventHandler.cc:72) and printed (src/cpp/src/UTIL/LCTOOLS.cc:67 and 104, Operators.cc:191). The others do not use the
vector. -/
def NamedEvent.call (e : NamedEvent) (c : EventCall) : NamedEvent :=
  { ev := (e.ev.call c).2, colNames := if c = .names then e.ev.getCollectionNames else e.colNames }

/-- Calls one after the other. -/
def NamedEvent.calls (e : NamedEvent) (cs : List EventCall) : NamedEvent := cs.foldl NamedEvent.call e

/-- A loop of a program over the names, at name `i`: `for( unsigned i=0 ; i < v->size() ; ++i ){ std::string name = (*v)[i] ; body }` with the pointer `v`
that `getCollectionNames` returned; the names it comes to and the event afterwards. `body` gives the calls that are made for a name. `fuel` bounds the number of
turns. With iterators instead of numbers the behaviour is undefined if `body` asks for the names. -/
def NamedEvent.forNames (body : Str → List EventCall) : Nat → NamedEvent → Nat → Except Err (List Str × NamedEvent)
  | 0, _, _ => .error .diverge
  | fuel + 1, e, i =>
    match e.colNames[i]? with
    | none => .ok ([], e)
    | some n => (forNames body fuel (e.calls (body n)) (i + 1)).map fun r => (n :: r.1, r.2)

end Lcio
