import Verif.Lcio.Collection
/-
Reading a whole event: the event header record, the event record, and what is done afterwards.
-/
namespace Lcio
open Sio

/-! ## Parents and daughters -/

/-- `dynamic_cast<MCParticleIOImpl*>` of an element, src/cpp/src/SIO/SIOParticleHandler.cc:108 and 113. -/
def Elem.particle (e : Elem) : Option MCParticle := match e.obj with
  | some (.mcParticle o) => some o
  | _ => none

/-- All elements of an event. -/
def allElems (cols : List (Str × Collection)) : List Elem := cols.flatMap (·.2.elems)

/-- The MCParticle at an address: `dynamic_cast<MCParticleIOImpl*>` of a pointer. None if the pointer is null or points to another object. -/
def findParticle (cols : List (Str × Collection)) (a : Nat) : Option MCParticle :=
  (allElems cols).findSome? fun e => if e.addr = a then e.particle else none

/-- Change the MCParticle at an address. -/
def Elem.upd (a : Nat) (f : MCParticle → MCParticle) (e : Elem) : Elem := match e.obj with
  | some (.mcParticle o) => if e.addr = a then { e with obj := some (.mcParticle (f o)) } else e
  | _ => e
/-- Change the MCParticle at an address. -/
def updParticle (a : Nat) (f : MCParticle → MCParticle) (cols : List (Str × Collection)) : List (Str × Collection) :=
  cols.map fun c => (c.1, { c.2 with elems := c.2.elems.map (·.upd a f) })

/-- SIOParticleHandler.cc:124-127: `mom->_daughters.push_back( mcp )` for each of the parents. Undefined behaviour if the pointer is null. -/
def pushDaughters (mcp : Nat) : List Nat → List (Str × Collection) → Except Err (List (Str × Collection))
  | [], cols => .ok cols
  | mom :: moms, cols => match findParticle cols mom with
    | none => .error .ub
    | some _ => pushDaughters mcp moms (updParticle mom (fun o => { o with daughters := o.daughters ++ [mcp] }) cols)

/-- SIOParticleHandler.cc:117-120: `dgh->_parents.push_back( mcp )` for each of the daughters. -/
def pushParents (mcp : Nat) : List Nat → List (Str × Collection) → Except Err (List (Str × Collection))
  | [], cols => .ok cols
  | dgh :: dghs, cols => match findParticle cols dgh with
    | none => .error .ub
    | some _ => pushParents mcp dghs (updParticle dgh (fun o => { o with parents := o.parents ++ [mcp] }) cols)

/-- The loop SIOParticleHandler.cc:112-129 over the particles (given by their addresses) of a collection. -/
def restoreLoop (nDaughters nParents : Nat) : List Nat → List (Str × Collection) → Except Err (List (Str × Collection))
  | [], cols => .ok cols
  | a :: as, cols => match findParticle cols a with
    | none => .error .ub
    | some mcp =>
      if nParents = 0 ∧ nDaughters > 0 then
        match pushParents a mcp.daughters cols with
        | .error e => .error e
        | .ok cols => restoreLoop nDaughters nParents as cols
      else if nParents > 0 ∧ nDaughters = 0 then
        match pushDaughters a mcp.parents cols with
        | .error e => .error e
        | .ok cols => restoreLoop nDaughters nParents as cols
      else restoreLoop nDaughters nParents as cols

/-- The particles of a collection (SIOParticleHandler.cc:107-111); none if an element is null or not an MCParticle. -/
def particles : List Elem → Option (List MCParticle)
  | [] => some []
  | e :: es => match e.particle, particles es with
    | some o, some l => some (o :: l)
    | _, _ => none

/-- One iteration of the loop over the collections of `SIOParticleHandler::restoreParentDaughterRelations`, SIOParticleHandler.cc:102-131. The
totals are `int` in the code and cannot overflow in memory. -/
def restoreCol (i : Nat) (cols : List (Str × Collection)) : Except Err (List (Str × Collection)) := match cols[i]? with
  | none => .ok cols
  | some c =>
    if c.2.type == str "MCParticle" && !c.2.flag.getLsbD 18 then
      match particles c.2.elems with
      | none => .error .ub
      | some ps => restoreLoop ((ps.map (·.daughters.length)).sum) ((ps.map (·.parents.length)).sum) (c.2.elems.map (·.addr)) cols
    else .ok cols

/-- The loop over the collections from the `i`th on, SIOParticleHandler.cc:100-133. -/
def restoreFrom (i : Nat) : Nat → List (Str × Collection) → Except Err (List (Str × Collection))
  | 0, cols => .ok cols
  | n+1, cols => match restoreCol i cols with
    | .error e => .error e
    | .ok cols => restoreFrom (i + 1) n cols

/-- `SIOParticleHandler::restoreParentDaughterRelations`, SIOParticleHandler.cc:100-133. -/
def restoreRelations (cols : List (Str × Collection)) : Except Err (List (Str × Collection)) := restoreFrom 0 cols.length cols

/-! ## Events -/

/-- `LCReader::postProcessEvent`, src/cpp/src/MT/LCReader.cc:563-585. `ignoreNull`: the environment variable
`LCIO_IGNORE_NULL_IN_SUBSET_COLLECTIONS` is set. -/
def postProcess (ignoreNull : Bool) (cols : List (Str × Collection)) : Except Err (List (Str × Collection)) :=
  match restoreRelations cols with
  | .error e => .error e
  | .ok cols => if !ignoreNull && cols.any (fun c => c.2.flag.getLsbD 18 && c.2.elems.any (·.addr == 0)) then .error .lcException else .ok cols

/-- The collections of the event after the event record is read: those the header has put into the event, in order of the names, with what
was read for them. (A record with two blocks of the same name is not modelled.) -/
def filledCols (heads : List (Str × ColHead)) (results : List (Str × Collection)) : List (Str × Collection) :=
  heads.map fun h => (h.1, match results.find? fun r => r.1 == h.1 with
    | some r => r.2
    | none => { type := h.2.type })

/-- Reading an event from the data of its two records: the processing lambda of `LCReader::readNextEvent`, MT/LCReader.cc:141-178, without
lazy unpacking, and the end of that function (205-210), without `setAccessMode`. `only` are the names given to `setReadCollectionNames`. -/
def readEvent (std : Std Pid) (ignoreNull : Bool) (only : List Str) (hdrData evtData : Str) (next : Nat) :
    Except Err (EventHeader × List (Str × Collection)) :=
  match readBlocks hdrData [headerDecoder only] next with
  | .error e => .error e
  | .ok (hs, _, _) =>
    let hdr := match hs with
      | (_, h) :: _ => h
      | [] => {}
    match readBlocks evtData (eventDecoders std hdr.cols) next with
    | .error e => .error e
    | .ok (results, ρ, _) =>
      match postProcess ignoreNull (filledCols hdr.cols (results.map fun c => (c.1, c.2.mapPtr ρ))) with
      | .error e => .error e
      | .ok cols => .ok (hdr, cols)

/-- The headers of collections. -/
def colHeads (cols : List (Str × Collection)) : List (Str × ColHead) := cols.map fun c => (c.1, ⟨c.2.type, c.2.flag⟩)

/-- Writing an event as two records: `LCWriter::writeEvent`, src/cpp/src/MT/LCWriter.cc:146-157: the data (without record
headers) of the header record and of the event record. `buf` is what the two buffers contain before, `h` is the event without its collections. -/
def writeEvent (std : Std Pid) (only : List Str) (buf : Str × Str) (opts : W32) (h : EventHeader) (cols : List (Str × Collection)) : Except Err (Str × Str) :=
  match writeRecord headerRecordName buf.1 [EventHeader.block only { h with cols := colHeads cols }] opts with
  | .error e => .error e
  | .ok (i1, r1) => match writeRecord eventRecordName buf.2 (eventBlocks std only cols) opts with
    | .error e => .error e
    | .ok (i2, r2) => .ok (r1.drop i1.headerLength, r2.drop i2.headerLength)

end Lcio
