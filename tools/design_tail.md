## 5. What is modelled and what is not

Modelled, function by function:

* `sio/src/api.cc`, `sio/include/sio/{api,buffer,block,io_device,definitions,memcpy,version}.h`, `sio/src/{block,buffer,io_device}.cc`: all of
  reading, writing, relocation, records, streams and compression except what is listed below.
* `src/cpp/src/SIO/*`: all handlers, `LCIORecords`, `RunEventMap`, `LCIORandomAccess*`, `SIOWriter`; `SIOReader` through `MT::LCReader`, which it wraps, with what it owns and its listeners.
* `src/cpp/src/MT/LCReader.cc`, `LCWriter.cc` (also when used for several files, as `SIOWriter`); `src/cpp/src/IOIMPL/LCEventLazyImpl.cc`.
* `src/cpp/src/IMPL/*`: setters, getters, access checks, copying, assignment and deletion of all classes; `LCEventImpl`, `LCCollectionVec`, `LCParametersImpl`, `LCFlagImpl`.
* `src/cpp/src/UTIL/`: `BitField64`, `CellIDEncoder`, `CellIDDecoder`, `LCTime`, `LCRelationNavigator`, `PIDHandler`, `CollectionParameterMap`,
  `LCSplitWriter`, `lXDR`, `LCRTRelations.h`, `BitSet32.h`, `lStdHep`, `LCStdHepRdr`, `LCStdHepRdrNew`, `ProcessFlag`,
  `LCTrackerConf.h` and `ILDConf.h` (the cell id encodings), `LCIterator.h`, `LCTypedVector.h`, `LCWarning`, `LCFixedObject.h`, `EventSummary.h`,
  `Operators.cc` (which objects are used by all operators, C102; the texts of the operators for events, collections, parameters, user objects, relations, run headers, particle ids,
  MC particles, calorimeter hits, raw data, vertices and track states, C113).
* `cmake/lcio.xml.in`, translated by `tools/format.py` (the second field `momentum` of MCParticles is called `momentum2`; `SiliconRawHit` is described, but there is no
  handler for it).
* `src/cpp/src/CPPFORT/HEPEVT.cc`; of `src/cpp/src/EXAMPLE/` the programs `stdhepjob`, `stdhepjob_new`, `lsh` (without signals, paging and columns), `lcio_merge_files`, `copyfix`, `addRandomAccess`, `lcio_event_counter`,
  `lcio_split_file`, `lcio_check_col_elements`, `lcio_parallel_read`, `dumpevent`, `anajob` (what it counts and prints) and `lcio_parallel_processing` (without `usleep`, `rand` and the lines about the scheduler itself).

Not modelled:

* zlib, the file system apart from contents of files by name and (C112, C115) a limit on the length of a file, failing allocation, signals. Compression levels are only zero or not zero.
* `TrackerHitPlane` and `TrackerHitZCylinder` objects stored in a collection of type `TrackerHit`; `&v[0]` of an empty vector (formally undefined,
  harmless in practice).
* A record with two blocks of the same name, when written (reading any bytes is modelled).
* Sorting of particle ids with a NaN likelihood, which is not a strict weak ordering.
* In C74 and C75: opening other files with a reader that was not closed, and lengths for which the memory of the machine is not enough.
* Access modes of events handed out by the reader sessions of C31-C34 (the modes themselves are in C47).
* Opening or closing an `MT::LCWriter` while other threads write, and threads that change an event while it is written.
* Access checks in the setters used by the cell id encoder (they are in C64), a default-constructed `CellIDDecoder`.
* `takeCollection` of something that is not an `LCCollectionVec`; run-time relations of deleted objects.
* Opening failures of XDR files; two names of one file (links) in the split writer.
* What a lazily unpacked event holds in its collections after unpacking has failed half way (no call shows it).
* Of the Fortran interface only what C94, C109, C116 and C117 are about (files, the lists of relation navigators, arrays, strings, elements by number, headers, parameters, hits, particles) and `hepevt2lcio`/`lcio2hepevt`; the functions that only call a getter or setter are not modelled. The Java, Python and ROOT bindings, other examples and test programs, dumping to text except for what C96, C97, C101, C102, C105, C113 and C114 are about (the rest of `LCTOOLS`, `Operators`), `IndexMap` (its constructor always throws), and of
  `lStdHep` the printing functions, ntuples and the numbers in run records.
