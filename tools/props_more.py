# Properties added while the model grew.
p("Collections keep their names, types, flags and parameters",
  "The collections of an event that were stored and that the reader asks for come back in the same order with the same name, type, flag word, parameters and number of elements; only the parameters and the flag bit that LCIO itself sets when it writes vertices and generic objects may be added.",
  "all events with collections of all types, all flag words, parameters, lists of names for writer and reader",
  "Writers change collections while they write them (initWriting), so all combinations of earlier parameters and flags matter.",
  "src/cpp/src/SIO/SIOObjectHandler.cc", "src/cpp/src/SIO/SIOVertexHandler.cc: initWriting", "src/cpp/src/SIO/SIOLCGenericObjectHandler.cc: initWriting", "src/cpp/src/SIO/SIOCollectionHandler.cc")
p("An event deletes each collection it owns exactly once",
  "When an event is destroyed, every collection that is in the event and was not handed out with takeCollection is deleted exactly once, taken collections are not deleted, and removeCollection deletes the collection it removes.",
  "all sequences of calls on an event before it is destroyed",
  "Ownership depends on the whole history of additions, removals and takings.",
  "src/cpp/src/IMPL/LCEventImpl.cc: ~LCEventImpl, takeCollection, removeCollection", "src/cpp/include/IMPL/LCEventImpl.h")
p("A setter is read back by its getter and changes nothing else",
  "After a setter of an event data object, collection, event or run header has been called with usable arguments on an object that is not read-only, the getter that belongs to it returns the value that was set (or the old list with the new entry for functions that add), and all other getters return what they returned before.",
  "all classes of EVENT/IMPL objects, all their setters, all arguments and all states of the object",
  "The statement is about every pair of setter and getter, every argument and every earlier state.",
  "src/cpp/src/IMPL/*.cc", "src/cpp/include/IMPL/*.h: set*, add*, get*")
p("A crash while writing loses only what was not finished",
  "If the machine stops while a writer adds to a file and only a prefix of what was written reaches the file, a reader of that file returns exactly a prefix of the run headers and events written, which includes everything of the closed sessions and every call that had finished within that prefix; after it the reader returns null or throws, and never returns data that were not written.",
  "all sessions of writing and appending, all contents, all numbers of bytes that reach the file, all sequences of reads",
  "Every byte of every file is a possible crash point; a test can only try some of them.",
  "src/cpp/src/MT/LCWriter.cc: writeRunHeader, writeEvent, open, close", "src/cpp/src/SIO/SIOWriter.cc: open", "sio/src/api.cc: api::read_record_info, api::read_record_data, api::skip_n_records", "src/cpp/src/MT/LCReader.cc: readNextRecord, readStream")
p("Direct access also works for files that were not closed",
  "If a file has no records for direct access because its writer was not closed, opening it for direct access finds out where the run headers and events are: the same run headers and events are found as in a file that was closed.",
  "all files written with any run headers and events in any order by a writer that was not closed, with and without compression",
  "Which records the recovery meets depends on the whole sequence of run headers and events in the file.",
  "src/cpp/src/SIO/LCIORandomAccessMgr.cc: createEventMap, recreateEventMap, readLCIORandomAccess", "sio/include/sio/api.h: api::skip_records")
p("Copying events from file to file changes nothing",
  "An event that was read from a file can be written to another file as it is, and the event read from that file equals the first one: header, names, types, flags and parameters of the collections, all attributes of all objects, subsets, and pointers between the objects.",
  "all events that can be stored and read, with all selections of collections by writer and reader, all options and contents of buffers",
  "Readers lose precision, change the order of lists and leave out things while writers add parameters, so that a second round could change or reject what the first one accepted.",
  "src/cpp/src/SIO/*Handler.cc", "src/cpp/src/MT/LCReader.cc: readNextEvent", "src/cpp/src/MT/LCWriter.cc: writeEvent", "src/cpp/src/SIO/LCIORecords.cc")
p("StdHep files deliver their events in order",
  "After a StdHep file has been opened, reading returns every event of the file exactly once, in the order of the event tables, with its number and all numbers of its particles unchanged; begin run and end run records are skipped, and behind the last event every call reports the end of the file.",
  "all files with any header, any number of event tables and records of the versions 1 and 2, any events, any number of calls",
  "The reader follows pointers from table to table and from there to the events, so that the result depends on the whole layout of the file.",
  "src/cpp/src/UTIL/lStdHep.cc: readFileHeader, readEvent, getEvent, EventTable::read, Event::read", "src/cpp/src/UTIL/lXDR.cc")
p("Collections made of StdHep events have the particles and relations of the events",
  "LCStdHepRdr makes one MCParticle for each entry of the event, in order, with its attributes; the daughters and parents are exactly those the event lists, symmetrically and without duplicates; entries 94 get the undecayed particles before them as parents as far as their number of daughters asks for; updateNextEvent adds the same collections and throws EndOfDataException at the end.",
  "all events with any number of particles, any mothers and daughters, all sequences of events",
  "Relations are made in three passes over the event, each of which depends on what the others did with all other particles.",
  "src/cpp/src/UTIL/LCStdHepRdr.cc: readEvent, updateNextEvent", "src/cpp/src/IMPL/MCParticleImpl.cc: addParent, addDaughter")
p("Charges follow from the particle codes",
  "The charge that LCStdHepRdr computes for a particle code is that of its quarks for mesons, baryons and diquarks of any excitation, that of the particle for elementary particles and their partners, and opposite for antiparticles; it is defined for all codes that stand for particles.",
  "all 32 bit codes",
  "There are four thousand million codes, and those for which the function leaves its table are not listed anywhere.",
  "src/cpp/src/UTIL/LCStdHepRdr.cc: threeCharge")
p("Merging files keeps all run headers and events",
  "lcio_merge_files makes one file from which the same run headers and events are read as from the input files, in the order of the files, with nothing changed, lost or added; run headers differ only in the parameter with the name of the file. copyfix, applied to a file whose writer crashed, makes a file with everything that was completely written.",
  "all lists of files written in any sessions, all run headers and events, all sequences of reads of the result, all points at which the writer of the input can have stopped",
  "Reading, delivery to listeners, writing and reading again are combined for arbitrary contents; a test sees one combination.",
  "src/cpp/src/EXAMPLE/lcio_merge_files.cc", "src/cpp/src/EXAMPLE/copyfix.cc", "src/cpp/src/MT/LCReader.cc: readStream", "src/cpp/src/MT/LCWriter.cc: writeEvent, writeRunHeader, close")
p("Process flags say what is in the hard final state",
  "A ProcessFlag behaves like a set of bits, and decodeMCTruthProcess returns for every event with at most one Higgs boson the flags with their documented meaning: which particles, how many leptons, neutrinos and quarks the hard final state has, and what the Higgs boson decays to. The function ends.",
  "all lists of bits; all events with any number of particles, any relations between them and any particle codes, in the three forms of records that generators write",
  "The hard final state is found by following relations in the whole event, and the flags depend on all particles found.",
  "src/cpp/include/UTIL/ProcessFlag.h", "src/cpp/src/UTIL/ProcessFlag.cc: decodeMCTruthProcess")
p("The HEPEVT common block holds the same event as the collection",
  "toHepEvt fills the Fortran common block with one entry for each MCParticle, in order, with its attributes, mothers and daughters; fromHepEvt makes a collection with one particle for each entry, its attributes and relations; one after the other gives back the event with the same relations and with values rounded to float.",
  "all events with up to 4000 particles and any relations, all contents of the common block before",
  "Relations are written as intervals of positions and restored by looking at all entries, so that each particle depends on all others.",
  "src/cpp/src/CPPFORT/HEPEVT.cc: toHepEvt, fromHepEvt", "src/cpp/include/CPPFORT/hepevt0.h", "src/cpp/include/CPPFORT/hepevt1.h")
p("No file can lead a reader to undefined behaviour",
  "Whatever bytes are in the files, opening them and calling the methods of a reader in any order, also after calls that threw exceptions, gives results or throws exceptions; it does not read or write outside of buffers, and does not use null pointers or elements of empty containers.",
  "all contents of any number of files, all sequences of calls of readNextEvent, readNextRunHeader, skipNEvents, getNumberOfEvents, readRunHeader, readEvent, readStream and close, with and without direct access",
  "Files can be damaged in any way; each length, pointer, name and position in a file can be wrong, and the check that is missing is only seen with the file that needs it.",
  "src/cpp/src/MT/LCReader.cc", "src/cpp/src/SIO/LCIORandomAccessMgr.cc: createEventMap", "src/cpp/src/SIO/LCIORecords.cc", "src/cpp/src/SIO/SIOParticleHandler.cc: restoreParentDaughterRelations", "sio/src/api.cc: read_record_info, read_record_data, extract_block, read_blocks")
p("Reading ends for every file",
  "Whatever bytes are in the files, opening them and each call of a method of a reader returns or throws an exception after a finite number of steps.",
  "all contents of any number of files, all sequences of calls, with and without direct access",
  "The loops follow lengths and positions that are read from the file; that they get further cannot be seen from any number of files for which they do.",
  "src/cpp/src/MT/LCReader.cc", "src/cpp/src/SIO/LCIORandomAccessMgr.cc: createEventMap, recreateEventMap", "sio/include/sio/api.h: read_records, skip_records", "sio/src/api.cc: read_blocks")
p("Files have the documented format",
  "What is written as run header, event header, event, random access record and index is, byte for byte, what the description of the file format in lcio.xml says for the current version and the data of the objects.",
  "all run headers, events with collections of all 21 kinds, flag words and parameters, all random access records and indices",
  "A program that reads files by the description meets all combinations of flags, sizes and pointers; writer and reader of the library can agree on something else without any test noticing.",
  "cmake/lcio.xml.in", "src/cpp/src/SIO: the write functions of all handlers", "src/cpp/src/SIO/LCIORecords.cc", "src/cpp/src/SIO/RunEventMap.cc", "src/cpp/src/SIO/SIORandomAccessHandler.cc", "src/cpp/src/SIO/SIOIndexHandler.cc")
p("Files of all documented versions can be read",
  "From a file of any version that has the format that lcio.xml describes for this version, the reader gets the run headers and events with all the data that files of this version contain; everything else has the default values, and pointers are to the objects that were loaded.",
  "all versions from 0.8 on, all run headers and events with collections of all 21 kinds, flag words and parameters, all choices of collections to read",
  "Old versions differ in dozens of conditions; there are no writers for them any more, and the files that are left for tests show few combinations.",
  "cmake/lcio.xml.in", "src/cpp/src/SIO: the read functions of all handlers", "src/cpp/src/SIO/LCIORecords.cc")
p("The bytes of a record depend only on what is stored",
  "Writing the same record gives the same bytes whatever was in the buffer before, so that nothing of earlier events gets into the file, and files can be compared byte by byte.",
  "all records, all contents and sizes of the buffer before",
  "Buffers are used again for all events, larger and smaller ones; bytes that are skipped show only with the contents before.",
  "sio/src/api.cc: write_record", "sio/src/io_device.cc: write_device::pad, relocation")
p("The newer StdHep reader gives particles their mothers",
  "LCStdHepRdrNew makes of an event of a StdHep file the same particles and weights as LCStdHepRdr, and in addition each entry gets the mothers it names as parents, each once and both ways; updateNextEvent gives events the numbers on the file if asked to.",
  "all StdHep files and all mother numbers of their entries",
  "The relations of each particle depend on the numbers that all others name, as mothers and as daughters, in all orders.",
  "src/cpp/src/UTIL/LCStdHepRdrNew.cc: readEvent, updateNextEvent", "src/cpp/include/UTIL/LCStdHepRdrNew.h")
p("The encoding of tracker cell ids stays the same once it is used",
  "LCTrackerCellID::encoding_string can be replaced by one that names subdet or system, side, layer, module and sensor in this order until it is used for the first time; other texts are refused with an exception and change nothing. From the first use on it never changes, and attempts to do so throw. The indices 0 to 4 are those of the five fields.",
  "all histories of calls, all texts, all values",
  "Whether a use came before a change depends on the whole history of the program; the check of the text has to hold for all texts.",
  "src/cpp/include/UTIL/LCTrackerConf.h: LCTrackerCellID")
p("Collection parameters keep a map",
  "CollectionParameterMap shows the map that earlier ones have stored in the parameters of the collection with the changes made to it, in whatever order, and leaves all other parameters alone; for a const collection nothing is stored; inconsistent parameters throw an exception.",
  "all sequences of uses, all maps, names of parameters and other parameters",
  "The map is the result of all uses before, and is read and stored as a whole each time.",
  "src/cpp/src/UTIL/CollectionParameterMap.cc", "src/cpp/include/UTIL/CollectionParameterMap.h")
p("Iterators visit every element of a collection once",
  "LCIterator returns the elements of a collection one after the other, in their order and each once, and then null pointers; it throws if the type is wrong, and treats a missing collection as empty. LCTypedVector has the elements of the type, and null pointers for others, at the same positions.",
  "all collections, numbers of calls and types, collections that grow meanwhile",
  "Sizes, types of single elements, null pointers and changes during the iteration have no bound.",
  "src/cpp/include/UTIL/LCIterator.h", "src/cpp/include/UTIL/LCTypedVector.h", "src/cpp/src/IMPL/LCCollectionVec.cc: getNumberOfElements, getElementAt")
p("Warnings are printed as often as allowed",
  "LCWarning prints a registered warning each time it is called for, with the number of times left, until the maximum is reached, and then not any more; at the end of the program it prints the texts of exactly the warnings that were printed before; registering a warning a second time throws.",
  "all histories of registering and printing warnings, all texts and maxima",
  "What a call prints depends on all calls before.",
  "src/cpp/src/UTIL/LCWarning.cc", "src/cpp/include/UTIL/LCWarning.h")
p("Adding records for direct access keeps what is in files",
  "The program addRandomAccess adds the records for direct access to files that do not have them; afterwards each file holds the run headers and events it held before.",
  "all files on the disk, all lists of names, with and without option -f",
  "What the program does depends on the last bytes of each file and on every record in it.",
  "src/cpp/src/EXAMPLE/addRandomAccess.cc: main", "src/cpp/src/SIO/SIOWriter.cc: SIOWriter::open, SIOWriter::close", "src/cpp/src/SIO/LCIORandomAccessMgr.cc: initAppend, recreateEventMap")
p("Readers report how many events and runs there are",
  "getNumberOfEvents and getNumberOfRuns return the numbers of events and run headers in what the reader has opened, getEvents and getRuns list their numbers in order, whatever has been read before; reading then goes on where it was. lcio_event_counter prints the total number of events of the files it is given.",
  "all files written in any sessions, all calls before, with and without direct access, all lists of files",
  "The map is read from records at the end of files whose positions depend on everything that was written; that the position in the file is kept shows only in the calls that follow.",
  "src/cpp/src/MT/LCReader.cc: getNumberOfEvents, getNumberOfRuns, getRuns, getEvents", "src/cpp/src/SIO/LCIORandomAccessMgr.cc: createEventMap", "src/cpp/src/EXAMPLE/lcio_event_counter.cc: main")
p("Readers can be used again",
  "A reader that has been used for some files and is closed can open others, by a name or by a list of names, and then gives exactly what a new reader gives for them; once closed, and before it opens something, it gives nothing.",
  "all histories of uses, calls and files",
  "What remains from earlier uses depends on the whole history, and shows at the end of files or in parameters of run headers.",
  "src/cpp/src/MT/LCReader.cc: open, close", "src/cpp/src/SIO/SIOReader.cc: open, close")
p("What readers hand out lives until the next call and is then deleted",
  "An event that readNextEvent or readEvent of an LCReader has returned stays valid until the next event is read with the same reader, whatever other calls are made; a run header until the next run header is read. Each is deleted exactly once, so that the memory used does not grow with the number of events read, and exceptions thrown for damaged files can be caught.",
  "all histories of calls, all contents of files",
  "That nothing is deleted twice or forgotten depends on the whole history, including exceptions from any byte of the files.",
  "src/cpp/src/SIO/SIOReader.cc: readNextEvent, readNextRunHeader, readEvent, readRunHeader, ~SIOReader", "src/cpp/include/SIO/SIOReader.h")
p("Registered listeners are given everything that is read",
  "readStream of an LCReader gives each event to every registered event listener and each run header to every registered run listener, in the order of the files: first to be modified, then to be processed, and with the changes of the listeners before. A listener that is registered twice is called once, and one that is removed is not called any more. Listeners may register and remove listeners while they are called, and are called in the order in which they were registered.",
  "all histories of registering and removing, all numbers of listeners, all behaviours of listeners, all contents of files",
  "Listeners are code of the user, with behaviours that depend on all calls before; the order of calls depends on addresses.",
  "src/cpp/src/SIO/SIOReader.cc: registerLCEventListener, removeLCEventListener, registerLCRunListener, removeLCRunListener, readStream", "src/cpp/include/SIO/SIOReader.h")
p("Splitting a file loses nothing",
  "lcio_split_file writes everything in a file, in its order, to files with the numbers 000, 001, ... in their names, begins the next file as soon as the last one is larger than the limit, prints the number of events, and leaves all other files as they are; read one after the other, or together, the new files give what the old one gives.",
  "all files that LCIO writes, all limits and names, all other files on the disk",
  "Where files are split depends on the compressed size of everything before.",
  "src/cpp/src/EXAMPLE/lcio_split_file.cc: main", "src/cpp/src/UTIL/LCSplitWriter.cc", "src/cpp/src/MT/LCReader.cc: readStream")
p("Events are processed in parallel, each once and in its run",
  "lcio_parallel_processing gives each event to a task, with never more tasks at a time than allowed; each event and run header is processed exactly once, each run header after all events before it and before all events after it; the program ends when all tasks have returned, and it does end if the tasks return, for all numbers of threads in LCIO_MAX_THREADS.",
  "all interleavings of the main thread and the tasks, all numbers of tasks, all contents of files",
  "Schedules of threads cannot be enumerated, and the program has loops that wait for other threads.",
  "src/cpp/src/EXAMPLE/lcio_parallel_processing.cc: Scheduler, main", "src/cpp/src/MT/LCReader.cc: readNextRecord")
p("A writer can be used for one file after the other",
  "An LCWriter can be opened, written to, closed and opened again in any order and for any names. Creating a file that exists, appending to one that does not exist or is empty, and writing when no file is open throw exceptions and change nothing; each file that has been closed is exactly as if a writer of its own had written it. A call at the wrong time, such as opening a file while another is open or closing twice, throws an exception or does nothing, and the writer can still be used.",
  "all sequences of calls of open, writeRunHeader, writeEvent, flush, setCompressionLevel and close, all names and contents",
  "What the writer keeps from one file to the next can show up in any later file; sequences of calls are unbounded.",
  "src/cpp/src/SIO/SIOWriter.cc: open, close, writeEvent, writeRunHeader", "src/cpp/src/MT/LCWriter.cc: open, close, writeEvent, writeRunHeader", "src/cpp/src/SIO/LCIORandomAccessMgr.cc: initAppend, writeRandomAccessRecords")
p("A copy of an object is an object of its own",
  "Copying an object gives a new one with the same contents that can be changed without changing the first, has an id() of its own, and can be deleted independently; assigning an object to another replaces its contents. Nothing is deleted twice and no memory is lost, however objects are made, changed, copied, assigned and deleted.",
  "all histories of making, changing, copying, assigning, locking and deleting objects",
  "Sharing shows only when the copy or the original is changed or deleted later, in histories of any length.",
  "src/cpp/src/IMPL/TrackImpl.cc: TrackImpl, operator=, ~TrackImpl", "src/cpp/src/IMPL/ClusterImpl.cc: ~ClusterImpl", "src/cpp/src/IMPL/ReconstructedParticleImpl.cc", "src/cpp/src/IMPL/SimCalorimeterHitImpl.cc", "src/cpp/src/IMPL/TPCHitImpl.cc", "src/cpp/src/IMPL/AccessChecked.cc")
p("Classes with a fixed number of values keep them in memory and in files",
  "An object of a class that is derived from LCFixedObject has exactly the values of its class, each is 0 or what it was last set to, and nothing else changes it. After a collection of such objects is stored and loaded, the class can be used for the loaded objects and gives the same values, while a class with other numbers of values throws an exception. The description of the data, such as that of EventSummary, lists all values that are stored, in the order of their numbers.",
  "all classes (numbers of values, names, descriptions), all sequences of setters, all events, all histories of making, wrapping, copying and deleting",
  "Classes are defined by users and have any numbers of values; the setters can be called in any order.",
  "src/cpp/include/UTIL/LCFixedObject.h: LCFixedObject", "src/cpp/include/UTIL/EventSummary.h: EventSummary, ESI, ESF, ESD", "src/cpp/src/IMPL/LCGenericObjectImpl.cc", "src/cpp/src/SIO/SIOLCGenericObjectHandler.cc")
p("The Fortran interface gives Fortran programs the same data",
  "Functions that copy a vector to an array of the program store its values as far as there is room, tell how many they stored, and leave everything else as it was; a vector made of the array has the same values, for numbers, pointers and strings. Elements are counted from one, and a number out of range is reported. A run header, and a parameter, that a program writes is the one it reads.",
  "all vectors, all strings, all sizes of the arrays of the program, all numbers of elements, all run headers and parameters",
  "Arrays can have any size and vectors any number of elements; writing behind an array need not be seen in a test.",
  "src/cpp/src/CPPFORT/lciof77apiext.cc: lcgetintvector, lcgetstringvector, lcstringvectorcreate, lcwriterunheader, lcreadnextrunheader, lcsetparameters, lcgetparameters, lcgetsimcalohit", "src/cpp/src/CPPFORT/lcmcp.cc: lcmcpgetparent, lcmcpgetdaughter", "src/cpp/src/CPPFORT/lcvtx.cc: lcvtxgetparameters", "src/cpp/src/CPPFORT/lcpid.cc: lcpidgetparameters", "src/cpp/src/CPPFORT/lcclu.cc: lcclugethitcontributions", "src/cpp/src/CPPFORT/lccol.cc: lccolgetelementat, lccolremoveelementat", "src/cpp/src/CPPFORT/lcobv.cc", "src/cpp/src/CPPFORT/lcsth.cc")
p("The program that checks collections succeeds just if the events are as asked for",
  "lcio_check_col_elements succeeds just if some event that it looks at has the collection, and no more events than allowed have a number of elements outside the range that is asked for (with --average: the mean number of elements is in the range); events without the collection count as failed, and as 0 for the average, just if --pedantic is given. It looks at the events from the start event on, as many as asked for, in all files. Options that cannot be used together make it fail.",
  "all options, all files that LCIO writes and all numbers of files, all names of collections",
  "The options can be combined in many ways, and the result depends on all events of all files.",
  "src/cpp/src/EXAMPLE/lcio_check_col_elements.cc: main, print_usage", "src/cpp/src/SIO/SIOReader.cc: readNextEvent, skipNEvents")
p("Files read in parallel are printed as a whole and in order",
  "lcio_parallel_read reads each file in a thread of its own and prints whole events, one after the other: parts of different events are never mixed, and the events of each file are printed once each, in their order; at the end it prints the right number. If reading a file throws an exception the program ends with that exception. It cannot deadlock, and ends in all orders in which the threads run if each file can be read to its end.",
  "all interleavings of the threads, all numbers of files, all contents of files, readable or not",
  "Schedules of threads cannot be enumerated, and the order of the output depends on them.",
  "src/cpp/src/EXAMPLE/lcio_parallel_read.cc: main", "src/cpp/src/UTIL/LCTOOLS.cc: dumpEvent", "src/cpp/src/MT/LCReader.cc: readStream")
p("What is printed tells what is in the event",
  "What dumpEvent, printParameters, printMCParticles, printDaughterParticles, getSimulatorStatusString and getQualityString show determines what they show it for: two events with the same text have the same numbers, detector and collections; parameters with the same text have the same names and values; each status has a text of its own; each particle has its line, whose indices are the positions of its parents and daughters in the collection; and in the list of descendants each line has, below its number, exactly the daughters of its particle. Printing ends.",
  "all events, parameters, status words, collections of particles and decay chains",
  "Texts could be the same for any two of infinitely many events; decay chains have any size and shape.",
  "src/cpp/src/UTIL/LCTOOLS.cc: dumpEvent, printParameters, printMCParticles, printDaughterParticles, getSimulatorStatusString, getQualityString", "src/cpp/src/IMPL/MCParticleImpl.cc: getEndpoint, getEnergy")
p("StdHep files are converted to LCIO files",
  "stdhepjob and stdhepjob_new convert all events of a StdHep file, or the first maxEvt if this is not negative, and print how many these are. A reader of the new file gets a run header for run 0 that names the input file, and then the events, in order and numbered from 0, each with one collection MCParticle that has one particle for each entry, in order, with its PDG code, status, vertex, momentum, mass, charge, time, spin and color flow, and the weight and process number as parameters; parents and daughters are the particles that correspond to those in the StdHep event. An output file that exists is not touched.",
  "all StdHep files whose events can be converted, all numbers of events, all limits",
  "Files have any number of events with any relations between particles, and the claim is about what comes out of the new file in another program.",
  "src/cpp/src/EXAMPLE/stdhepjob.cc: main", "src/cpp/src/EXAMPLE/stdhepjob_new.cc: main", "src/cpp/src/UTIL/LCStdHepRdr.cc: updateNextEvent", "src/cpp/src/UTIL/LCStdHepRdrNew.cc: updateNextEvent", "src/cpp/src/SIO/SIOWriter.cc: open, writeEvent")
p("Pointers in events that have been read lead to objects of the event",
  "In every event that a reader gives (readNextEvent, readEvent, or to a listener), whatever is in the file, every pointer is null or points to an object that belongs to the event and was made when it was read: hits, tracks, clusters, particles, parents and daughters, particle ids, vertices, both ends of relations, and the elements of subset collections. No two objects are at the same address, elements of a collection are there unless it is a subset, and they are of the class that is the type of the collection, so that a typed vector of this class has all of them.",
  "all files, damaged or made by other programs, in which no event record has a collection twice; all sequences of calls before",
  "The bytes of a file are arbitrary, and a dangling pointer need not be seen when it is used.",
  "src/cpp/src/MT/LCReader.cc: readNextEvent, readEvent, readStream, postProcessEvent", "src/cpp/src/SIO/SIOCollectionHandler.cc: read", "src/cpp/src/SIO/SIOParticleHandler.cc: read, restoreParentDaughterRelations", "sio/src/io_device.cc: pointer_relocation, pointer_to, pointed_at", "src/cpp/include/UTIL/LCTypedVector.h")
p("The type name of an object is the one of its collection",
  "lctypename of an LCObject gives the name of its class as it is used for the type of collections, and the object can be used as an object of this class; for elements of a collection of an event that was read it is the type of the collection.",
  "all objects of all classes",
  "Objects of all classes, with any contents, in all collections of all files.",
  "src/cpp/include/UTIL/LCIOTypeInfo.h: lctypename", "src/cpp/src/IMPL/LCIO.cc")
p("dumpevent shows the event that is asked for",
  "dumpevent with a file and a number n shows the n-th event of the file; with a file, a run and an event number it shows the event with these numbers. If there is no such event it says so and ends with status 1, as it does if the file cannot be read; wrong numbers lead to the usage. If LCIO_READ_COL_NAMES is set, just the collections that are listed there are read.",
  "all files that LCIO writes, all numbers, all lists of names",
  "Files have any number of events with any numbers, in any number of sessions.",
  "src/cpp/src/EXAMPLE/dumpevent.cc: main", "src/cpp/src/MT/LCReader.cc: open, skipNEvents, readNextEvent, readEvent", "src/cpp/src/SIO/SIOReader.cc")

p("Printing an event in detail does not crash",
  "LCTOOLS::dumpEventDetailed, which dumpevent uses, prints every event that a reader gives: objects, what they point at, cell ids with their fields and particle ids with their parameters, without undefined behaviour and without an exception.",
  "all events, with any collections, pointers and parameters",
  "It follows pointers of all classes and reads parameters of collections; tests print events that are complete.",
  "src/cpp/src/UTIL/LCTOOLS.cc:LCTOOLS::dumpEventDetailed", "src/cpp/src/UTIL/LCTOOLS.cc:LCTOOLS::printClusters", "src/cpp/src/UTIL/Operators.cc:operator<<")

p("Collections of user objects are printed with their own description",
  "Above the objects of a collection of user objects LCTOOLS::printLCGenericObjects prints the description of the data of that collection and whether the objects have a fixed size.",
  "all sequences of collections that a program prints",
  "The text is kept between calls, so it depends on what the program has printed before.",
  "src/cpp/src/UTIL/Operators.cc:header", "src/cpp/src/UTIL/LCTOOLS.cc:LCTOOLS::printLCGenericObjects")

p("Views of a buffer show the bytes that were asked for",
  "buffer::span and buffer_span::subspan return a view of exactly the bytes that were asked for, also of views of views, or throw out_of_range if they are not all there; at throws out_of_range for every index that is not in the view, so no access that is checked reads a byte outside the buffer. dump prints the bytes of the view, at most max_bytes.",
  "all buffers, all chains of views, all starts, lengths and indices, all limits",
  "Starts and lengths are arbitrary numbers of 64 bits, and views can be nested to any depth.",
  "sio/src/buffer.cc: buffer_span::subspan, buffer_span::at, buffer_span::operator[], buffer_span::dump, buffer::span", "sio/include/sio/buffer.h: buffer_span")

p("anajob shows everything that is in the files",
  "anajob prints for each of the files how many run headers and events are in it, then all run headers of all files, in order, then all events, in order, and how many events it has read. If LCIO_READ_COL_NAMES is set, just the collections that are listed there are read.",
  "all lists of files that LCIO writes, all contents, all lists of names",
  "Any number of files with any number of sessions and events; one reader is used for all files, so what is printed for a file could depend on those before.",
  "src/cpp/src/EXAMPLE/anajob.cc: main", "src/cpp/src/MT/LCReader.cc: open, close, getNumberOfEvents, getNumberOfRuns, readNextRunHeader, readNextEvent", "src/cpp/src/SIO/LCIORandomAccessMgr.cc: createEventMap, clear")

p("The closest track state is found",
  "getClosestTrackState returns the state of the track whose reference point is closest to the given point.",
  "all tracks with any number of states, all reference points and points, any floating point arithmetic",
  "Tracks can have any number of states, and coordinates are arbitrary floating point values, including those that are not numbers.",
  "src/cpp/src/IMPL/TrackImpl.cc: TrackImpl::getClosestTrackState", "src/cpp/include/EVENT/Track.h")

p("Splitting a file and merging the parts gives the file again",
  "If a file is split with lcio_split_file and the parts are merged with lcio_merge_files, the new file has the same run headers and events in the same order, whatever the size of the parts; merging files in stages gives the same as merging them at once.",
  "all files that LCIO writes, all sizes of the parts, all groups of files",
  "Files have any number of records, so there can be any number of parts, and what is copied was itself read from a copy.",
  "src/cpp/src/EXAMPLE/lcio_split_file.cc: main", "src/cpp/src/EXAMPLE/lcio_merge_files.cc: main", "src/cpp/src/UTIL/LCSplitWriter.cc")

p("Cell ids of ILD always have the canonical fields",
  "Whatever further fields are given to an ILDCellIDEncoder, the five canonical fields have their indices and bits, so that a decoder that knows only the canonical encoding reads them correctly, even from the first word of the cell id alone; if the constructor throws, the collection is unchanged.",
  "all texts with further fields, all types of hits, all values of the fields, all collections",
  "The further fields are an arbitrary text, and values and widths of fields have too many combinations to try.",
  "src/cpp/include/UTIL/ILDConf.h: ILDCellIDEncoder, ILDCellID0", "src/cpp/src/UTIL/ILDConf.cc", "src/cpp/include/UTIL/CellIDEncoder.h")
p("What a Fortran program stores in events is what it gets",
  "The header of an event, the simulated tracker hits, the simulated calorimeter hits with their contributions and the simulated particles that a Fortran program makes are the ones it gets: hits and contributions in the order they were added, counted from one, each value as it was set last, and nothing of its arrays is changed but the elements that hold the values.",
  "all headers; all sequences of hits and all interleavings of making hits and adding contributions; all sequences of calls that set something of a particle; all sizes of arrays with enough room",
  "Tests make a few hits with a few values; whether a value survives depends on all calls before it, on sizes of numbers, and on which functions change something else.",
  "src/cpp/src/CPPFORT/lciof77apiext.cc: lcseteventheader, lcgeteventheader, lcaddsimtrackerhit, lcgetsimtrackerhit, lcaddsimcalohit, lcgetsimcalohit, lcgetsimcalohitmccont, lcgetmcparticledata", "src/cpp/src/CPPFORT/lcsch.cc: lcschaddmcparticlecontribution", "src/cpp/src/CPPFORT/lcmcp.cc")
p("Adding collections to an event that was read changes nothing of what was there",
  "A program reads an event, adds collections to it and writes it to another file. When that is read, everything that was in the first event is there and the same, with the same pointers between the objects, and what was added is there, with its relations to the objects that were read.",
  "all events, all collections that can be added to them, wherever their names put them, all buffers and options",
  "The names decide where collections are put and in which order pointers are restored; tests add collections with a few fixed names to a few events.",
  "src/cpp/src/EXAMPLE/recjob.cc", "src/cpp/src/SIO/SIOEventHandler.cc", "src/cpp/src/SIO/SIOCollectionHandler.cc", "src/cpp/src/SIO/SIOParticleHandler.cc: restoreParentDaughterRelations", "src/cpp/src/IMPL/LCEventImpl.cc: addCollection")

p("The LCIO shell shows what is in files",
  "In the interactive shell lsh, files, runs, events and collections are entered with cd and listed with ls. For every file written with LCIO and every sequence of commands, the list of a file has its runs with descriptions and numbers of events, the list of a run has its events, the list of an event has its collections with types and sizes, and cat and dump show the collection, event or run at the place where the user is. Paths with several parts lead to where their parts lead one after the other, and .. leads back. Other files can be opened at any time.",
  "all files, all sequences of commands, all paths, all numbers of runs, events and collections",
  "what is shown depends on all commands that were given before, because the reader, the maps of runs and the counters are kept; tests cover few histories",
  "src/cpp/src/EXAMPLE/lsh.cc: fun_open, fun_ls, fun_cd, fun_print, fun_dump, main")
p("Nothing is lost silently when the disk becomes full",
  "If there is no room on the disk for what a program writes, the call of writeRunHeader or writeEvent for which there is none throws, and so do all calls for writing that come after it; if there is only no room for the index, close throws. If no call throws, the file is complete. What was written by calls that returned normally can be read from the file, as can what was in the file before it was opened to append.",
  "all earlier sessions and histories of writing, compressed or not, with any number of run headers and events, and every number of bytes the file can have on the disk",
  "The disk can become full at every byte of every record, in the header, the data or the padding, and also while the index is written; a test has one size of disk.",
  "sio/src/api.cc: sio::api::write_record", "src/cpp/src/SIO/SIOWriter.cc: SIOWriter::writeRunHeader, SIOWriter::writeEvent, SIOWriter::close", "src/cpp/src/SIO/LCIORandomAccessMgr.cc: LCIORandomAccessMgr::writeRandomAccessRecords")
p("What is printed of an object does not depend on what was printed before",
  "Objects, collections and events are printed with the operators << for lcshort and lcio_long, to any stream and any number of times, or as text with toString. The text of an object is always the same, whatever was printed to the stream before, and printing does not change how the stream prints the numbers of the program.",
  "all objects, all histories of printing to a stream, all formats the stream can have",
  "The operators set and do not reset the fill character, the base, the precision and the alignment of the stream; a test prints few objects in one order.",
  "src/cpp/src/UTIL/Operators.cc: operator<<, toString", "src/cpp/include/UTIL/Operators.h")
p("The listing of a file shows its records and blocks",
  "dump_records prints one line for each record of a file, in the order of the file, starting behind the number of records to skip and up to the number to show, with the name, the position, the options and the lengths of the record. In detailed mode, each record is followed by one line for each of its blocks, with name, version, position and length, also if the record is compressed. At the end of the file it returns normally.",
  "all files of records, compressed or not, with any number of records and blocks, all numbers of records to skip and to show",
  "Buffers and the stream are used again for each record, so what is shown of one can depend on those before; a test has few files.",
  "sio/src/api.cc: sio::api::dump_records, sio::api::skip_n_records, sio::api::read_block_infos", "sio/include/sio/api.h")
p("Threads that write to a full disk are told",
  "Several threads write run headers and events with one MT writer, and the disk becomes full. Whatever the schedule, the call for which there is no room throws and so do all calls that get to the file after it, in all threads; none of them waits forever. If only the index has no room, close throws; if nothing throws, the file is complete. What was written by calls that returned normally can be read from the file, in an order in which the calls of each thread are in the order it made them, and only that is in the index.",
  "all numbers of threads, all programs of calls, all schedules, compressed or not, and every number of bytes the file can have on the disk",
  "The disk can become full at any byte while any other thread is at any point of its call; a test has one size of disk and few schedules.",
  "src/cpp/src/MT/LCWriter.cc: MT::LCWriter::writeRunHeader, MT::LCWriter::writeEvent, MT::LCWriter::close", "sio/src/api.cc: sio::api::write_record", "src/cpp/src/SIO/LCIORandomAccessMgr.cc: LCIORandomAccessMgr::writeRandomAccessRecords")

p("Fortran programs are told whether writing and reading succeeded",
  "A Fortran program that opens a file, writes run headers and events, and closes it, is not ended by the library: each function returns LCIO_SUCCESS if it did what was asked and LCIO_ERROR if not (also on a full disk), and what was written with LCIO_SUCCESS is in the file. A program that reads a file gets everything that was written, in order, and then 0.",
  "all sequences of sessions, all run headers and events, all sizes of the disk, all orders of calls for reading",
  "The disk becomes full at any byte of any record; which exceptions leave the functions depends on where it happens.",
  "src/cpp/src/CPPFORT/lcwrt.cc: lcwrtopen, lcwrtclose, lcwrtwriterunheader, lcwrtwriteevent", "src/cpp/src/CPPFORT/lcrdr.cc: lcrdrreadnextevent, lcrdrreadnextrunheader",
  "src/cpp/src/CPPFORT/lciof77apiext.cc: lcwriterunheader, lcreadnextrunheader", "src/cpp/src/SIO/SIOWriter.cc: SIOWriter")

p("Lists that a relation navigator hands out stay correct",
  "The lists of related objects and of weights that a navigator (LCRelationNavigator, and lcrnv in Fortran) gives to a program always show the relations of the moment, however relations are added and removed while the program keeps them. Removing the relations found in such a list, one after the other, removes all of them.",
  "all sequences of calls before and after the list was given, all four kinds of lists, all objects and weights",
  "Whether a list that is kept can still be used depends on the whole history of calls in between; tests ask again each time.",
  "src/cpp/src/UTIL/LCRelationNavigator.cc: LCRelationNavigator::getRelatedToObjects, LCRelationNavigator::getRelatedFromObjects, LCRelationNavigator::addRelation, LCRelationNavigator::removeRelation",
  "src/cpp/src/CPPFORT/lcrnv.cc: lcrnvgetrelatedtoobjects, lcrnvgetrelatedtoweights")

p("Going through the names of an event visits every collection once",
  "A program that goes through the list of names it got from an event comes to the name of every collection that was in the event once, whatever it does with the event for each name (getting, taking, adding and removing collections, writing or printing the event). If it removes the collections it selects, just these are gone afterwards.",
  "all sequences of calls that made the event, everything a program can do for each name, all selections of names",
  "The list is part of the event and is made again whenever someone asks for the names; what the loop sees depends on what is called in between.",
  "src/cpp/src/IMPL/LCEventImpl.cc: LCEventImpl::getCollectionNames, LCEventImpl::removeCollection, LCEventImpl::addCollection", "src/cpp/src/SIO/LCIORecords.cc: SIOEventRecord::setupBlocks", "src/cpp/src/UTIL/LCTOOLS.cc: LCTOOLS::dumpEvent")

p("Objects in the collections of an event are deleted once",
  "When an event is deleted, every object that was put into its collections is deleted exactly once. Objects may be put into any number of subset collections in addition; these delete nothing.",
  "all sequences of calls for the event and its collections (adding and removing elements and collections, taking collections, setting flags), all objects",
  "Which collection deletes an object is decided by flags at the time of deletion, after any history; an object deleted twice or never does not show in a test that ends soon after.",
  "src/cpp/src/IMPL/LCCollectionVec.cc: LCCollectionVec::~LCCollectionVec, LCCollectionVec::setSubset, LCCollectionVec::setFlag, LCCollectionVec::removeElementAt", "src/cpp/src/IMPL/LCEventImpl.cc: LCEventImpl::~LCEventImpl, LCEventImpl::takeCollection")

p("What is attached to an object at run time stays with it and is deleted once",
  "ext<V>() of an object gives what the program has attached to this object under the name V, or zero, a null pointer or an empty container; other objects and other names, also copies of the object, have no influence. What is given to extensions that take ownership is deleted exactly once, together with the object.",
  "all programs that make, copy, assign and delete objects and attach values, pointers and containers to them under any names, in any order",
  "The places for extensions are made on first use and shared between copies of objects; which object deletes what depends on the whole history.",
  "src/cpp/include/LCRTRelations.h: LCRTRelations::ext, LCRTRelations::ptr, LCIntExtension, LCFloatExtension, LCBoolExtension, LCExtension, LCOwnedExtension, LCExtensionVector, LCOwnedExtensionVector", "src/cpp/src/IMPL/TrackImpl.cc: TrackImpl::operator=")

p("Merging files on a full disk does not fail silently",
  "If the disk becomes full while lcio_merge_files (or copyfix) writes the new file, whoever started the program can see from how it ends that the new file is not complete. All run headers and events that were written before can be read from the new file. If there is enough room the program ends normally, with the complete file.",
  "all files that can be merged, made in any number of sessions, all sizes of the disk",
  "The disk becomes full at any byte of any record or of the index that is written when the program ends; whether the exception is seen depends on where this is.",
  "src/cpp/src/EXAMPLE/lcio_merge_files.cc: main, RunEventProcessor::~RunEventProcessor", "src/cpp/src/EXAMPLE/copyfix.cc: main, RunEventProcessor::~RunEventProcessor", "src/cpp/src/SIO/SIOWriter.cc: SIOWriter::close")

p("Merging files keeps the files that are merged",
  "lcio_merge_files (and copyfix) changes no file except the new one, which has the name that was given, with the extension .slcio. Nothing that is in the files to be merged is lost, whatever names are given. If a file does not exist, nothing is changed and the program ends with an error.",
  "all files that can be merged, all contents of the disk, all names of the files and of the new file",
  "The new file is made before anything is read; whether this does harm depends on the names and not on what is in the files.",
  "src/cpp/src/EXAMPLE/lcio_merge_files.cc: main, RunEventProcessor", "src/cpp/src/EXAMPLE/copyfix.cc: main", "src/cpp/src/MT/LCReader.cc: LCReader::open", "src/cpp/src/SIO/SIOWriter.cc: SIOWriter::open, SIOWriter::getSIOFileName")

p("Removing selected elements of a collection in a loop",
  "A program that goes through a collection with getNumberOfElements and getElementAt, and calls removeElementAt for the elements it selects, removes just these elements; the others stay, in their order. If the collection is read-only, it is not changed and there is an exception.",
  "all collections, all selections of elements, the usual ways to write the loop",
  "Whether an element is skipped depends on which elements are next to each other; tests select single elements.",
  "src/cpp/src/IMPL/LCCollectionVec.cc: LCCollectionVec::removeElementAt, LCCollectionVec::getElementAt, LCCollectionVec::getNumberOfElements")
