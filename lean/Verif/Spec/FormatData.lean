import Verif.Spec.Format
/-
The description of the file format that comes with the code, cmake/lcio.xml.in. This file is made from it by tools/format.py.
A loop over a single field of type `short` is written `shorts`. A second field called `momentum` is called `momentum2`.
-/
namespace Spec.Doc

/-- cmake/lcio.xml.in:822-824. The elements that `nVals` counts. -/
def namedParameters.nIntParameters.nVals : Fmt :=
  .data .int 1 "value" <| .done

/-- cmake/lcio.xml.in:819-825. The elements that `nIntParameters` counts. -/
def namedParameters.nIntParameters : Fmt :=
  .data .string 1 "key" <| .data .int 1 "nVals" <| .rep "nVals" namedParameters.nIntParameters.nVals <| .done

/-- cmake/lcio.xml.in:830-832. The elements that `nVals` counts. -/
def namedParameters.nFloatParameters.nVals : Fmt :=
  .data .float 1 "value" <| .done

/-- cmake/lcio.xml.in:827-833. The elements that `nFloatParameters` counts. -/
def namedParameters.nFloatParameters : Fmt :=
  .data .string 1 "key" <| .data .int 1 "nVals" <| .rep "nVals" namedParameters.nFloatParameters.nVals <| .done

/-- cmake/lcio.xml.in:838-840. The elements that `nVals` counts. -/
def namedParameters.nStringParameters.nVals : Fmt :=
  .data .string 1 "value" <| .done

/-- cmake/lcio.xml.in:835-841. The elements that `nStringParameters` counts. -/
def namedParameters.nStringParameters : Fmt :=
  .data .string 1 "key" <| .data .int 1 "nVals" <| .rep "nVals" namedParameters.nStringParameters.nVals <| .done

/-- cmake/lcio.xml.in:816-843. Named parameters. -/
def namedParameters : Fmt :=
  .when (.after 1001) (.data .int 1 "nIntParameters" <| .rep "nIntParameters" namedParameters.nIntParameters <| .data .int 1 "nFloatParameters" <|
    .rep "nFloatParameters" namedParameters.nFloatParameters <| .data .int 1 "nStringParameters" <| .rep "nStringParameters"
    namedParameters.nStringParameters <| .done) (.done) <| .done

/-- cmake/lcio.xml.in:19-42. The block `LCIORandomAccess` of the record `LCIORandomAccess`. -/
def LCIORandomAccess : Fmt :=
  .data .int 1 "runMin" <| .data .int 1 "eventMin" <| .data .int 1 "runMax" <| .data .int 1 "eventMax" <| .data .int 1 "nRunHeaders" <| .data .int 1
    "nEvents" <| .data .int 1 "recordsAreInOrder" <| .data .long 1 "indexLocation" <| .data .long 1 "prevLocation" <| .data .long 1 "nextLocation" <|
    .data .long 1 "firstRecordLocation" <| .data .int 1 "recordSize" <| .done

/-- cmake/lcio.xml.in:87-89. The elements that `nIntParameters` counts. -/
def LCIOIndex.size.nIntParameters : Fmt :=
  .data .int 1 "value" <| .done

/-- cmake/lcio.xml.in:90-92. The elements that `nFloatParameters` counts. -/
def LCIOIndex.size.nFloatParameters : Fmt :=
  .data .float 1 "value" <| .done

/-- cmake/lcio.xml.in:93-95. The elements that `nStringParameters` counts. -/
def LCIOIndex.size.nStringParameters : Fmt :=
  .data .string 1 "value" <| .done

/-- cmake/lcio.xml.in:68-97. The elements that `size` counts. -/
def LCIOIndex.size : Fmt :=
  .when (.masked "controlWord" 1 0) (.data .int 1 "runOffset" <| .done) (.done) <| .data .int 1 "eventNumber" <| .when (.masked "controlWord" 2 1)
    (.data .long 1 "locationOffset" <| .done) (.data .int 1 "locationOffset" <| .done) <| .when (.masked "controlWord" 4 1) (.rep "nIntParameters"
    LCIOIndex.size.nIntParameters <| .rep "nFloatParameters" LCIOIndex.size.nFloatParameters <| .rep "nStringParameters"
    LCIOIndex.size.nStringParameters <| .done) (.done) <| .done

/-- cmake/lcio.xml.in:45-98. The block `LCIOIndex` of the record `LCIOIndex`. -/
def LCIOIndex : Fmt :=
  .data .int 1 "controlWord" <| .data .int 1 "runMin" <| .data .long 1 "baseOffset" <| .data .int 1 "size" <| .rep "size" LCIOIndex.size <| .done

/-- cmake/lcio.xml.in:106-108. The elements that `nActiveSubdetectors` counts. -/
def RunHeader.nActiveSubdetectors : Fmt :=
  .data .string 1 "subdetectorName" <| .done

/-- cmake/lcio.xml.in:101-110. The block `RunHeader` of the record `LCRunHeader`. -/
def RunHeader : Fmt :=
  .data .int 1 "runNumber" <| .data .string 1 "detectorName" <| .data .string 1 "description" <| .data .int 1 "nActiveSubdetectors" <| .rep
    "nActiveSubdetectors" RunHeader.nActiveSubdetectors <| .sub namedParameters <| .done

/-- cmake/lcio.xml.in:119-122. The elements that `nBlockNames` counts. -/
def EventHeader.nBlockNames : Fmt :=
  .data .string 1 "blockName" <| .data .string 1 "blockType" <| .done

/-- cmake/lcio.xml.in:113-124. The block `EventHeader` of the record `LCEventHeader`. -/
def EventHeader : Fmt :=
  .data .int 1 "runNumber" <| .data .int 1 "eventNumber" <| .data .long 1 "timeStamp" <| .data .string 1 "detectorName" <| .data .int 1 "nBlockNames"
    <| .rep "nBlockNames" EventHeader.nBlockNames <| .sub namedParameters <| .done

/-- cmake/lcio.xml.in:137-139. The elements that `nDaughter` counts. -/
def MCParticle.nMC.nDaughter : Fmt :=
  .data .pntr 1 "daughter" <| .done

/-- cmake/lcio.xml.in:142-144. The elements that `nParent` counts. -/
def MCParticle.nMC.nParent : Fmt :=
  .data .pntr 1 "parent" <| .done

/-- cmake/lcio.xml.in:131-179. The elements that `nMC` counts. -/
def MCParticle.nMC : Fmt :=
  .data .ptag 1 "this" <| .when (.before 9) (.data .pntr 1 "parent" <| .data .pntr 1 "secondParent" <| .data .int 1 "nDaughter" <| .rep "nDaughter"
    MCParticle.nMC.nDaughter <| .done) (.data .int 1 "nParent" <| .rep "nParent" MCParticle.nMC.nParent <| .done) <| .data .int 1 "PDG" <| .data .int
    1 "generatorStatus" <| .when (.not (.before 9)) (.data .int 1 "simulatorStatus" <| .done) (.done) <| .data .double 3 "vertex" <| .when (.after
    1002) (.data .float 1 "time" <| .done) (.done) <| .data .float 3 "momentum" <| .data .float 1 "mass" <| .data .float 1 "charge" <| .when (.before
    9) (.when (.zero "nDaughter") (.data .double 3 "endpoint" <| .done) (.done) <| .done) (.when (.bit "simulatorStatus" 31) (.data .double 3
    "endpoint" <| .when (.after 2006) (.data .float 3 "momentum2" <| .done) (.done) <| .done) (.done) <| .done) <| .when (.after 1051) (.data .float 3
    "spin" <| .data .int 2 "colorflow" <| .done) (.done) <| .done

/-- cmake/lcio.xml.in:127-180. The block `MCParticle` of the record `LCEvent`. -/
def MCParticle : Fmt :=
  .data .int 1 "flags" <| .sub namedParameters <| .data .int 1 "nMC" <| .rep "nMC" MCParticle.nMC <| .done

/-- cmake/lcio.xml.in:185-217. The elements that `n` counts. -/
def SimTrackerHit.n : Fmt :=
  .data .int 1 "cellID0" <| .when (.after 1051) (.when (.bit "flags" 29) (.data .int 1 "cellId1" <| .done) (.done) <| .done) (.done) <| .data .double
    3 "position" <| .when (.after 1012) (.data .float 1 "EDep" <| .done) (.data .float 1 "dedx" <| .done) <| .data .float 1 "time" <| .data .pntr 1
    "MCParticle" <| .when (.bit "flags" 30) (.data .float 3 "momentum" <| .when (.after 1006) (.data .float 1 "pathLength" <| .done) (.done) <| .done)
    (.done) <| .when (.after 2007) (.data .int 1 "Quality" <| .done) (.done) <| .when (.after 1000) (.data .ptag 1 "this" <| .done) (.done) <| .done

/-- cmake/lcio.xml.in:181-218. The block `SimTrackerHit` of the record `LCEvent`. -/
def SimTrackerHit : Fmt :=
  .data .int 1 "flags" <| .sub namedParameters <| .data .int 1 "n" <| .rep "n" SimTrackerHit.n <| .done

/-- cmake/lcio.xml.in:234-246. The elements that `nContributions` counts. -/
def SimCalorimeterHit.nHits.nContributions : Fmt :=
  .data .pntr 1 "MCParticle" <| .data .float 1 "energyContrib" <| .data .float 1 "time" <| .when (.bit "flags" 28) (.data .float 1 "length" <| .data
    .int 1 "PDG" <| .when (.after 1051) (.data .float 3 "stepPosition" <| .done) (.done) <| .done) (.done) <| .done

/-- cmake/lcio.xml.in:224-250. The elements that `nHits` counts. -/
def SimCalorimeterHit.nHits : Fmt :=
  .data .int 1 "cellId0" <| .when (.or (.before 9) (.bit "flags" 29)) (.data .int 1 "cellId1" <| .done) (.done) <| .data .float 1 "energy" <| .when
    (.bit "flags" 31) (.data .float 3 "position" <| .done) (.done) <| .data .int 1 "nContributions" <| .rep "nContributions"
    SimCalorimeterHit.nHits.nContributions <| .when (.after 1000) (.data .ptag 1 "this" <| .done) (.done) <| .done

/-- cmake/lcio.xml.in:219-251. The block `SimCalorimeterHit` of the record `LCEvent`. -/
def SimCalorimeterHit : Fmt :=
  .data .int 1 "flags" <| .sub namedParameters <| .data .int 1 "nHits" <| .rep "nHits" SimCalorimeterHit.nHits <| .done

/-- cmake/lcio.xml.in:258-260. The elements that `nElements` counts. -/
def LCFloatVec.nVectors.nElements : Fmt :=
  .data .float 1 "value" <| .done

/-- cmake/lcio.xml.in:256-264. The elements that `nVectors` counts. -/
def LCFloatVec.nVectors : Fmt :=
  .data .int 1 "nElements" <| .rep "nElements" LCFloatVec.nVectors.nElements <| .when (.after 1002) (.data .ptag 1 "this" <| .done) (.done) <| .done

/-- cmake/lcio.xml.in:252-265. The block `LCFloatVec` of the record `LCEvent`. -/
def LCFloatVec : Fmt :=
  .data .int 1 "flags" <| .sub namedParameters <| .data .int 1 "nVectors" <| .rep "nVectors" LCFloatVec.nVectors <| .done

/-- cmake/lcio.xml.in:272-274. The elements that `nElements` counts. -/
def LCIntVec.nVectors.nElements : Fmt :=
  .data .int 1 "value" <| .done

/-- cmake/lcio.xml.in:270-278. The elements that `nVectors` counts. -/
def LCIntVec.nVectors : Fmt :=
  .data .int 1 "nElements" <| .rep "nElements" LCIntVec.nVectors.nElements <| .when (.after 1002) (.data .ptag 1 "this" <| .done) (.done) <| .done

/-- cmake/lcio.xml.in:266-279. The block `LCIntVec` of the record `LCEvent`. -/
def LCIntVec : Fmt :=
  .data .int 1 "flags" <| .sub namedParameters <| .data .int 1 "nVectors" <| .rep "nVectors" LCIntVec.nVectors <| .done

/-- cmake/lcio.xml.in:286-288. The elements that `nElements` counts. -/
def LCStrVec.nVectors.nElements : Fmt :=
  .data .string 1 "value" <| .done

/-- cmake/lcio.xml.in:284-292. The elements that `nVectors` counts. -/
def LCStrVec.nVectors : Fmt :=
  .data .int 1 "nElements" <| .rep "nElements" LCStrVec.nVectors.nElements <| .when (.after 1002) (.data .ptag 1 "this" <| .done) (.done) <| .done

/-- cmake/lcio.xml.in:280-293. The block `LCStrVec` of the record `LCEvent`. -/
def LCStrVec : Fmt :=
  .data .int 1 "flags" <| .sub namedParameters <| .data .int 1 "nVectors" <| .rep "nVectors" LCStrVec.nVectors <| .done

/-- cmake/lcio.xml.in:300-312. The elements that `nHits` counts. -/
def RawCalorimeterHit.nHits : Fmt :=
  .data .int 1 "cellId0" <| .when (.or (.version 8) (.bit "flags" 29)) (.data .int 1 "cellId1" <| .done) (.done) <| .data .int 1 "amplitude" <| .when
    (.bit "flags" 27) (.data .int 1 "timeStamp" <| .done) (.done) <| .when (.not (.bit "flags" 28)) (.data .ptag 1 "this" <| .done) (.done) <| .done

/-- cmake/lcio.xml.in:294-313. The block `RawCalorimeterHit` of the record `LCEvent`. -/
def RawCalorimeterHit : Fmt :=
  .data .int 1 "flags" <| .sub namedParameters <| .data .int 1 "nHits" <| .rep "nHits" RawCalorimeterHit.nHits <| .done

/-- cmake/lcio.xml.in:321-347. The elements that `nHits` counts. -/
def CalorimeterHit.nHits : Fmt :=
  .data .int 1 "cellId0" <| .when (.or (.version 8) (.bit "flags" 29)) (.data .int 1 "cellId1" <| .done) (.done) <| .data .float 1 "energy" <| .when
    (.and (.after 1009) (.bit "flags" 26)) (.data .float 1 "energyError" <| .done) (.done) <| .when (.and (.after 1002) (.bit "flags" 27)) (.data
    .float 1 "time" <| .done) (.done) <| .when (.bit "flags" 31) (.data .float 3 "position" <| .done) (.done) <| .when (.after 1002) (.data .int 1
    "type" <| .data .pntr 1 "rawHit" <| .done) (.done) <| .when (.after 1002) (.data .ptag 1 "this" <| .done) (.when (.bit "flags" 28) (.data .ptag 1
    "this" <| .done) (.done) <| .done) <| .done

/-- cmake/lcio.xml.in:314-348. The block `CalorimeterHit` of the record `LCEvent`. -/
def CalorimeterHit : Fmt :=
  .data .int 1 "flags" <| .sub namedParameters <| .data .int 1 "nHits" <| .rep "nHits" CalorimeterHit.nHits <| .done

/-- cmake/lcio.xml.in:378-380. The elements that `nRawHits` counts. -/
def TrackerHit.n.nRawHits : Fmt :=
  .data .pntr 1 "rawHit" <| .done

/-- cmake/lcio.xml.in:353-385. The elements that `n` counts. -/
def TrackerHit.n : Fmt :=
  .when (.after 1051) (.data .int 1 "cellId0" <| .when (.bit "flags" 31) (.data .int 1 "cellId1" <| .done) (.done) <| .done) (.done) <| .when (.after
    1002) (.data .int 1 "type" <| .done) (.done) <| .data .double 3 "position" <| .data .float 6 "covariance" <| .when (.after 1012) (.data .float 1
    "EDep" <| .data .float 1 "EDepError" <| .done) (.data .float 1 "dedx" <| .done) <| .data .float 1 "time" <| .when (.after 1011) (.data .int 1
    "quality" <| .done) (.done) <| .when (.after 1002) (.data .int 1 "nRawHits" <| .rep "nRawHits" TrackerHit.n.nRawHits <| .done) (.data .pntr 1
    "rawHit" <| .done) <| .data .ptag 1 "this" <| .done

/-- cmake/lcio.xml.in:349-386. The block `TrackerHit` of the record `LCEvent`. -/
def TrackerHit : Fmt :=
  .data .int 1 "flags" <| .sub namedParameters <| .data .int 1 "n" <| .rep "n" TrackerHit.n <| .done

/-- cmake/lcio.xml.in:416-418. The elements that `nRawHits` counts. -/
def TrackerHitPlane.n.nRawHits : Fmt :=
  .data .pntr 1 "rawHit" <| .done

/-- cmake/lcio.xml.in:391-423. The elements that `n` counts. -/
def TrackerHitPlane.n : Fmt :=
  .when (.after 1051) (.data .int 1 "cellId0" <| .when (.bit "flags" 31) (.data .int 1 "cellId1" <| .done) (.done) <| .done) (.done) <| .when (.after
    1002) (.data .int 1 "type" <| .done) (.done) <| .data .double 3 "position" <| .data .float 2 "u" <| .data .float 2 "v" <| .data .float 1 "dU" <|
    .data .float 1 "dV" <| .data .float 1 "EDep" <| .data .float 1 "EDepError" <| .data .float 1 "time" <| .when (.after 1011) (.data .int 1 "quality"
    <| .done) (.done) <| .when (.after 1002) (.data .int 1 "nRawHits" <| .rep "nRawHits" TrackerHitPlane.n.nRawHits <| .done) (.data .pntr 1 "rawHit"
    <| .done) <| .data .ptag 1 "this" <| .done

/-- cmake/lcio.xml.in:387-424. The block `TrackerHitPlane` of the record `LCEvent`. -/
def TrackerHitPlane : Fmt :=
  .data .int 1 "flags" <| .sub namedParameters <| .data .int 1 "n" <| .rep "n" TrackerHitPlane.n <| .done

/-- cmake/lcio.xml.in:453-455. The elements that `nRawHits` counts. -/
def TrackerHitZCylinder.n.nRawHits : Fmt :=
  .data .pntr 1 "rawHit" <| .done

/-- cmake/lcio.xml.in:429-460. The elements that `n` counts. -/
def TrackerHitZCylinder.n : Fmt :=
  .when (.after 1051) (.data .int 1 "cellId0" <| .when (.bit "flags" 31) (.data .int 1 "cellId1" <| .done) (.done) <| .done) (.done) <| .when (.after
    1002) (.data .int 1 "type" <| .done) (.done) <| .data .double 3 "position" <| .data .float 2 "center" <| .data .float 1 "dRPhi" <| .data .float 1
    "dZ" <| .data .float 1 "EDep" <| .data .float 1 "EDepError" <| .data .float 1 "time" <| .when (.after 1011) (.data .int 1 "quality" <| .done)
    (.done) <| .when (.after 1002) (.data .int 1 "nRawHits" <| .rep "nRawHits" TrackerHitZCylinder.n.nRawHits <| .done) (.data .pntr 1 "rawHit" <|
    .done) <| .data .ptag 1 "this" <| .done

/-- cmake/lcio.xml.in:425-461. The block `TrackerHitZCylinder` of the record `LCEvent`. -/
def TrackerHitZCylinder : Fmt :=
  .data .int 1 "flags" <| .sub namedParameters <| .data .int 1 "n" <| .rep "n" TrackerHitZCylinder.n <| .done

/-- cmake/lcio.xml.in:473-475. The elements that `nRawDataWords` counts. -/
def TPCHit.n.nRawDataWords : Fmt :=
  .data .int 1 "rawDataWord" <| .done

/-- cmake/lcio.xml.in:466-486. The elements that `n` counts. -/
def TPCHit.n : Fmt :=
  .data .int 1 "cellID" <| .data .float 1 "time" <| .data .float 1 "charge" <| .data .int 1 "quality" <| .when (.bit "flags" 31) (.data .int 1
    "nRawDataWords" <| .rep "nRawDataWords" TPCHit.n.nRawDataWords <| .done) (.done) <| .when (.after 1002) (.when (.not (.bit "flags" 30)) (.data
    .ptag 1 "this" <| .done) (.done) <| .done) (.when (.bit "flags" 30) (.data .ptag 1 "this" <| .done) (.done) <| .done) <| .done

/-- cmake/lcio.xml.in:462-487. The block `TPCHit` of the record `LCEvent`. -/
def TPCHit : Fmt :=
  .data .int 1 "flags" <| .sub namedParameters <| .data .int 1 "n" <| .rep "n" TPCHit.n <| .done

/-- cmake/lcio.xml.in:492-504. The elements that `n` counts. -/
def TrackerRawData.n : Fmt :=
  .data .int 1 "cellID0" <| .when (.bit "flags" 31) (.data .int 1 "cellID1" <| .done) (.done) <| .data .int 1 "time" <| .data .int 1 "nADC" <| .shorts
    "nADC" "ADCValues" <| .data .ptag 1 "this" <| .done

/-- cmake/lcio.xml.in:488-505. The block `TrackerRawData` of the record `LCEvent`. -/
def TrackerRawData : Fmt :=
  .data .int 1 "flags" <| .sub namedParameters <| .data .int 1 "n" <| .rep "n" TrackerRawData.n <| .done

/-- cmake/lcio.xml.in:518-520. The elements that `nCharge` counts. -/
def TrackerData.n.nCharge : Fmt :=
  .data .float 1 "chargeValues" <| .done

/-- cmake/lcio.xml.in:510-522. The elements that `n` counts. -/
def TrackerData.n : Fmt :=
  .data .int 1 "cellID0" <| .when (.bit "flags" 31) (.data .int 1 "cellID1" <| .done) (.done) <| .data .float 1 "time" <| .data .int 1 "nCharge" <|
    .rep "nCharge" TrackerData.n.nCharge <| .data .ptag 1 "this" <| .done

/-- cmake/lcio.xml.in:506-523. The block `TrackerData` of the record `LCEvent`. -/
def TrackerData : Fmt :=
  .data .int 1 "flags" <| .sub namedParameters <| .data .int 1 "n" <| .rep "n" TrackerData.n <| .done

/-- cmake/lcio.xml.in:528-547. The elements that `n` counts. -/
def TrackerPulse.n : Fmt :=
  .data .int 1 "cellID0" <| .when (.bit "flags" 31) (.data .int 1 "cellID1" <| .done) (.done) <| .data .float 1 "time" <| .data .float 1 "charge" <|
    .when (.after 1012) (.when (.bit "flags" 30) (.data .float 3 "covariance" <| .done) (.done) <| .done) (.done) <| .data .int 1 "quality" <| .data
    .pntr 1 "tpcCorrectedData" <| .data .ptag 1 "this" <| .done

/-- cmake/lcio.xml.in:524-548. The block `TrackerPulse` of the record `LCEvent`. -/
def TrackerPulse : Fmt :=
  .data .int 1 "flags" <| .sub namedParameters <| .data .int 1 "n" <| .rep "n" TrackerPulse.n <| .done

/-- cmake/lcio.xml.in:553-559. The elements that `n` counts. -/
def SiliconRawHit.n : Fmt :=
  .data .int 1 "cellID0" <| .data .int 1 "cellID1" <| .data .int 1 "timeStamp" <| .data .int 1 "adcCounts" <| .data .ptag 1 "this" <| .done

/-- cmake/lcio.xml.in:549-560. The block `SiliconRawHit` of the record `LCEvent`. -/
def SiliconRawHit : Fmt :=
  .data .int 1 "flags" <| .sub namedParameters <| .data .int 1 "n" <| .rep "n" SiliconRawHit.n <| .done

/-- cmake/lcio.xml.in:570-581. The elements that `nTrackStates` counts. -/
def Track.nTrack.nTrackStates : Fmt :=
  .data .int 1 "location" <| .data .float 1 "d0" <| .data .float 1 "phi" <| .data .float 1 "omega" <| .data .float 1 "z0" <| .data .float 1
    "tanLambda" <| .data .float 15 "covMatrix" <| .data .float 3 "referencePoint" <| .done

/-- cmake/lcio.xml.in:599-601. The elements that `nHitNumbers` counts. -/
def Track.nTrack.nHitNumbers : Fmt :=
  .data .int 1 "subdetectorHitNumbers" <| .done

/-- cmake/lcio.xml.in:603-605. The elements that `nTracks` counts. -/
def Track.nTrack.nTracks : Fmt :=
  .data .pntr 1 "Track" <| .done

/-- cmake/lcio.xml.in:608-610. The elements that `n` counts. -/
def Track.nTrack.n : Fmt :=
  .data .pntr 1 "TrackerHit" <| .done

/-- cmake/lcio.xml.in:565-613. The elements that `nTrack` counts. -/
def Track.nTrack : Fmt :=
  .data .int 1 "type" <| .when (.after 1099) (.data .int 1 "nTrackStates" <| .rep "nTrackStates" Track.nTrack.nTrackStates <| .done) (.data .float 1
    "d0" <| .data .float 1 "phi" <| .data .float 1 "omega" <| .data .float 1 "z0" <| .data .float 1 "tanLambda" <| .data .float 15 "covMatrix" <|
    .data .float 3 "referencePoint" <| .done) <| .data .float 1 "chi2" <| .data .int 1 "ndf" <| .data .float 1 "dEdx" <| .data .float 1 "dEdxError" <|
    .data .float 1 "radiusOfInnermostHit" <| .data .int 1 "nHitNumbers" <| .rep "nHitNumbers" Track.nTrack.nHitNumbers <| .data .int 1 "nTracks" <|
    .rep "nTracks" Track.nTrack.nTracks <| .when (.bit "flag" 31) (.data .int 1 "n" <| .rep "n" Track.nTrack.n <| .done) (.done) <| .data .ptag 1
    "this" <| .done

/-- cmake/lcio.xml.in:561-614. The block `Track` of the record `LCEvent`. -/
def Track : Fmt :=
  .data .int 1 "flag" <| .sub namedParameters <| .data .int 1 "nTrack" <| .rep "nTrack" Track.nTrack <| .done

/-- cmake/lcio.xml.in:635-638. The elements that `nParams` counts. -/
def Cluster.nCluster.nParams : Fmt :=
  .data .float 1 "shape" <| .done

/-- cmake/lcio.xml.in:646-648. The elements that `npar` counts. -/
def Cluster.nCluster.npid.npar : Fmt :=
  .data .float 1 "parameter" <| .done

/-- cmake/lcio.xml.in:640-649. The elements that `npid` counts. -/
def Cluster.nCluster.npid : Fmt :=
  .data .float 1 "likelihood" <| .data .int 1 "type" <| .data .int 1 "pdg" <| .data .int 1 "algorithmType" <| .data .int 1 "npar" <| .rep "npar"
    Cluster.nCluster.npid.npar <| .done

/-- cmake/lcio.xml.in:655-657. The elements that `nClusters` counts. -/
def Cluster.nCluster.nClusters : Fmt :=
  .data .pntr 1 "Clusters" <| .done

/-- cmake/lcio.xml.in:660-663. The elements that `n` counts. -/
def Cluster.nCluster.n : Fmt :=
  .data .pntr 1 "CalorimeterHit" <| .data .float 1 "Contribution" <| .done

/-- cmake/lcio.xml.in:666-668. The elements that `nEnergies` counts. -/
def Cluster.nCluster.nEnergies : Fmt :=
  .data .float 1 "subdetectorEnergy" <| .done

/-- cmake/lcio.xml.in:619-670. The elements that `nCluster` counts. -/
def Cluster.nCluster : Fmt :=
  .data .int 1 "type" <| .data .float 1 "energy" <| .when (.after 1051) (.data .float 1 "energyError" <| .done) (.done) <| .data .float 3 "position"
    <| .data .float 6 "errpos" <| .data .float 1 "theta" <| .data .float 1 "phi" <| .data .float 3 "errdir" <| .when (.after 1002) (.data .int 1
    "nParams" <| .rep "nParams" Cluster.nCluster.nParams <| .data .int 1 "npid" <| .rep "npid" Cluster.nCluster.npid <| .done) (.data .float 6 "shape"
    <| .data .float 3 "particletype" <| .done) <| .data .int 1 "nClusters" <| .rep "nClusters" Cluster.nCluster.nClusters <| .when (.bit "flag" 31)
    (.data .int 1 "n" <| .rep "n" Cluster.nCluster.n <| .done) (.done) <| .data .int 1 "nEnergies" <| .rep "nEnergies" Cluster.nCluster.nEnergies <|
    .data .ptag 1 "this" <| .done

/-- cmake/lcio.xml.in:615-671. The block `Cluster` of the record `LCEvent`. -/
def Cluster : Fmt :=
  .data .int 1 "flag" <| .sub namedParameters <| .data .int 1 "nCluster" <| .rep "nCluster" Cluster.nCluster <| .done

/-- cmake/lcio.xml.in:684-686. The elements that `npar` counts. -/
def Vertex.nVertex.npar : Fmt :=
  .data .float 1 "parameter" <| .done

/-- cmake/lcio.xml.in:676-689. The elements that `nVertex` counts. -/
def Vertex.nVertex : Fmt :=
  .data .int 1 "primary" <| .data .int 1 "type" <| .data .float 1 "chi2" <| .data .float 1 "probability" <| .data .float 3 "position" <| .data .float
    6 "covariance" <| .data .int 1 "npar" <| .rep "npar" Vertex.nVertex.npar <| .data .pntr 1 "associatedParticle" <| .data .ptag 1 "this" <| .done

/-- cmake/lcio.xml.in:672-690. The block `Vertex` of the record `LCEvent`. -/
def Vertex : Fmt :=
  .data .int 1 "flag" <| .sub namedParameters <| .data .int 1 "nVertex" <| .rep "nVertex" Vertex.nVertex <| .done

/-- cmake/lcio.xml.in:713-715. The elements that `npar` counts. -/
def ReconstructedParticle.nObject.npid.npar : Fmt :=
  .data .float 1 "parameter" <| .done

/-- cmake/lcio.xml.in:722-724. The elements that `npar` counts. -/
def ReconstructedParticle.nObject.npid.npar2 : Fmt :=
  .data .float 1 "parameter" <| .done

/-- cmake/lcio.xml.in:706-726. The elements that `npid` counts. -/
def ReconstructedParticle.nObject.npid : Fmt :=
  .when (.after 1002) (.data .float 1 "likelihood" <| .data .int 1 "type" <| .data .int 1 "pdg" <| .data .int 1 "algorithmType" <| .data .int 1 "npar"
    <| .rep "npar" ReconstructedParticle.nObject.npid.npar <| .data .ptag 1 "pid" <| .done) (.data .float 1 "probability" <| .data .int 1 "typeID" <|
    .data .string 1 "identifier" <| .data .int 1 "npar" <| .rep "npar" ReconstructedParticle.nObject.npid.npar2 <| .done) <| .done

/-- cmake/lcio.xml.in:733-738. The elements that `nrecopart` counts. -/
def ReconstructedParticle.nObject.nrecopart : Fmt :=
  .data .pntr 1 "ReconstructedParticle" <| .when (.before 1003) (.data .float 1 "weight" <| .done) (.done) <| .done

/-- cmake/lcio.xml.in:740-745. The elements that `ntrk` counts. -/
def ReconstructedParticle.nObject.ntrk : Fmt :=
  .data .pntr 1 "Track" <| .when (.before 1003) (.data .float 1 "weight" <| .done) (.done) <| .done

/-- cmake/lcio.xml.in:747-752. The elements that `ncal` counts. -/
def ReconstructedParticle.nObject.ncal : Fmt :=
  .data .pntr 1 "Cluster" <| .when (.before 1003) (.data .float 1 "weight" <| .done) (.done) <| .done

/-- cmake/lcio.xml.in:759-762. The elements that `nmc` counts. -/
def ReconstructedParticle.nObject.nmc : Fmt :=
  .data .pntr 1 "MCParticle" <| .data .float 1 "weight" <| .done

/-- cmake/lcio.xml.in:695-765. The elements that `nObject` counts. -/
def ReconstructedParticle.nObject : Fmt :=
  .data .int 1 "typeFlag" <| .data .float 3 "momentum" <| .data .float 1 "energy" <| .data .float 10 "covariance" <| .data .float 1 "mass" <| .data
    .float 1 "charge" <| .data .float 3 "reference" <| .data .int 1 "npid" <| .rep "npid" ReconstructedParticle.nObject.npid <| .when (.after 1002)
    (.data .pntr 1 "ParticleIDUsed" <| .data .float 1 "goodnessOfPID" <| .done) (.done) <| .data .int 1 "nrecopart" <| .rep "nrecopart"
    ReconstructedParticle.nObject.nrecopart <| .data .int 1 "ntrk" <| .rep "ntrk" ReconstructedParticle.nObject.ntrk <| .data .int 1 "ncal" <| .rep
    "ncal" ReconstructedParticle.nObject.ncal <| .when (.after 1007) (.data .pntr 1 "startVertex" <| .done) (.done) <| .when (.before 1003) (.data
    .int 1 "nmc" <| .rep "nmc" ReconstructedParticle.nObject.nmc <| .done) (.done) <| .data .ptag 1 "this" <| .done

/-- cmake/lcio.xml.in:691-766. The block `ReconstructedParticle` of the record `LCEvent`. -/
def ReconstructedParticle : Fmt :=
  .data .int 1 "flag" <| .sub namedParameters <| .data .int 1 "nObject" <| .rep "nObject" ReconstructedParticle.nObject <| .done

/-- cmake/lcio.xml.in:782-784. The elements that `nInt` counts. -/
def LCGenericObject.nObject.nInt : Fmt :=
  .data .int 1 "intValue" <| .done

/-- cmake/lcio.xml.in:785-787. The elements that `nFloat` counts. -/
def LCGenericObject.nObject.nFloat : Fmt :=
  .data .float 1 "floatValue" <| .done

/-- cmake/lcio.xml.in:788-790. The elements that `nDouble` counts. -/
def LCGenericObject.nObject.nDouble : Fmt :=
  .data .double 1 "doubleValue" <| .done

/-- cmake/lcio.xml.in:776-792. The elements that `nObject` counts. -/
def LCGenericObject.nObject : Fmt :=
  .when (.not (.bit "flag" 31)) (.data .int 1 "nInt" <| .data .int 1 "nFloat" <| .data .int 1 "nDouble" <| .done) (.done) <| .rep "nInt"
    LCGenericObject.nObject.nInt <| .rep "nFloat" LCGenericObject.nObject.nFloat <| .rep "nDouble" LCGenericObject.nObject.nDouble <| .data .ptag 1
    "this" <| .done

/-- cmake/lcio.xml.in:767-793. The block `LCGenericObject` of the record `LCEvent`. -/
def LCGenericObject : Fmt :=
  .data .int 1 "flag" <| .sub namedParameters <| .when (.bit "flag" 31) (.data .int 1 "nInt" <| .data .int 1 "nFloat" <| .data .int 1 "nDouble" <|
    .done) (.done) <| .data .int 1 "nObject" <| .rep "nObject" LCGenericObject.nObject <| .done

/-- cmake/lcio.xml.in:798-804. The elements that `nRelations` counts. -/
def LCRelation.nRelations : Fmt :=
  .data .pntr 1 "LCObjectFrom" <| .data .pntr 1 "LCObjectTo" <| .when (.bit "flag" 31) (.data .float 1 "weight" <| .done) (.done) <| .done

/-- cmake/lcio.xml.in:794-805. The block `LCRelation` of the record `LCEvent`. -/
def LCRelation : Fmt :=
  .data .int 1 "flag" <| .sub namedParameters <| .data .int 1 "nRelations" <| .rep "nRelations" LCRelation.nRelations <| .done

/-- cmake/lcio.xml.in:811-813. The elements that `nReferences` counts. -/
def References.nReferences : Fmt :=
  .data .pntr 1 "originalObject" <| .done

/-- cmake/lcio.xml.in:807-814. The block `References` of the record `LCEvent`. -/
def References : Fmt :=
  .data .int 1 "flags" <| .sub namedParameters <| .data .int 1 "nReferences" <| .rep "nReferences" References.nReferences <| .done

end Spec.Doc
