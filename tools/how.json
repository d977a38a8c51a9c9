{
 "C01": "`api::read/write` and `memcpy::reverse_copy` on byte lists; round trip by reduction of the copy loop to per-element reversal.",
 "C02": "Same model; the bytes appended equal a directly written big-endian specification; alignment by induction over the writes.",
 "C03": "Invariant `cursor <= size` and frame condition by induction over device calls; `Err.ub` is never produced. The bound \"below 4 GiB\" is needed because the padding mask is 32 bits wide.",
 "C04": "Case analysis of `api::read`. Finding: for byte lengths >= 2^32-3 the 32-bit padding mask makes the bounds check pass and the copy reads out of bounds.",
 "C05": "Device-level string read/write; composition of C01.",
 "C06": "Device-level vector read/write. Finding: a stored empty vector leaves the target's old contents in place.",
 "C07": "`validate` as a loop over the C string; equivalence with an identifier predicate. Finding: the loop stops at an embedded NUL.",
 "C08": "Word arithmetic on `BitVec 32`.",
 "C09": "Full model of pointer/tag calls, both relocation passes and both maps; the final bytes are shown to be a rendering under an injective numbering, and reading resolves it.",
 "C10": "The relocation loop over an explicit memory; induction over the multimap.",
 "C11": "`write_blocks`/`extract_block`/`read_blocks` with arbitrary payload programs and decoders; induction over blocks.",
 "C12": "Same, for `read_block_infos`.",
 "C13": "Fuel-indexed loop. Finding: a block length of 0 loops forever; partial: terminates when no block length word is 0.",
 "C14": "`write_record` on buffers plus `read_record_info` on a stream model.",
 "C15": "Output and input stream models (position, eof and fail bits); induction over the records.",
 "C16": "Codec as a parameter with the single hypothesis `uncompress (compress x) = x`; zlib itself is not modelled.",
 "C17": "`read_records` loop with arbitrary predicate and callback against a list specification.",
 "C18": "`skip_records` loop. Finding: `skip_n_records(0)` skips one record.",
 "C19": "Reading from every prefix of a written file; induction over records, case split on the cut position, stale header buffer arbitrary.",
 "C20": "Finding: header lengths outside 8..116 overflow the header buffer; partial: safe inside the range.",
 "C21": "Word arithmetic on 32/64-bit integers.",
 "C22": "Case analysis with linear arithmetic.",
 "C23": "The map as an association list sorted by the C++ comparator; refinement to a function by induction over operations.",
 "C24": "Sortedness and exactness of the listing.",
 "C25": "Index block encoding. Findings: the single-run and 32-bit-offset decisions look at two entries only; partial under the conditions they assume.",
 "C26": "Field-by-field round trip and length computation.",
 "C27": "The random access manager over a history of sessions (create, append any number of times); fold over the sessions gives the fields of the final file record.",
 "C28": "Sessions as a state machine over the bytes of the file; invariant on the chain of access records; the direct reader follows it.",
 "C29": "The same state machine; what a reader gets after an append session is what it got before, followed by the new data.",
 "C30": "Reader model with and without event map on the same bytes.",
 "C31": "Writer and reader models composed: objects to records to bytes and back (C15, C37, C38, C39-C44), for any sequence of reading calls.",
 "C32": "Reader with a list of files; induction over the files.",
 "C33": "`readStream` as a loop over records with any number of listeners; the log of what each listener got against the list of written data.",
 "C34": "`skipNEvents` as a loop over records; same state afterwards as n calls of `readNextEvent`.",
 "C35": "Small-step interleaving semantics: atomic loads, encoding, compression, taking the mutex, single stream writes; forward simulation by the sequential writer.",
 "C36": "Round trip of the sorted maps.",
 "C37": "Round trip of the block.",
 "C38": "Round trip of the block, with the subset postfix. Finding: type names containing the postfix.",
 "C39": "Round trip of the block, flags arbitrary.",
 "C40": "Graph specification. Findings: several collections; null parents.",
 "C41": "Round trip per handler, all flag words.",
 "C42": "Round trip per handler, all flag words.",
 "C43": "Round trip per handler, all flag words.",
 "C44": "Round trip per handler. Findings for mixed generic objects.",
 "C45": "State machine of the lazy event with its list of blocks; simulation by the unpacked event over any sequence of calls.",
 "C46": "Map refinement by induction over calls.",
 "C47": "An event with its collections and elements in memory and their access flags; every member function that changes something; induction over calls.",
 "C48": "Map refinement by induction over calls.",
 "C49": "64-bit words and masks. Finding: the unsigned upper bound is off by one.",
 "C50": "String formatting and tokenising.",
 "C51": "Encoder/decoder on top of C49. Finding: the decoder's pointer cache.",
 "C52": "Calendar arithmetic. Finding: 32-bit overflow in 2106.",
 "C53": "Two maps kept in step; invariant by induction.",
 "C54": "State machine of the split writer. Finding: file name cache on reopen.",
 "C55": "State machine of the algorithm table.",
 "C56": "State machine over all objects. Finding: one-to-many re-parenting.",
 "C57": "State machine over all particles.",
 "C58": "Invariant by induction.",
 "C59": "Sums over an abstract commutative addition.",
 "C60": "Byte-level model of lXDR. Findings: write status, array sizes.",
 "C61": "Word arithmetic.",
 "C62": "Part of the event round trip: names, types, flags and parameters of the collections.",
 "C63": "The destructor as a loop over the map; a trace of deleted addresses.",
 "C64": "Every setter and getter of 22 classes as a function; case analysis over all pairs against a table that says which getter shows which setter.",
 "C65": "A crash leaves the first n bytes of the new file and, if the old file was longer, the rest of the old one. Records are parsed one by one up to the cut; a cut inside a record is an error of the reader or the end.",
 "C66": "The recovery loop on the records of the file, by induction on what was written; a small function says which run headers and events it finds.",
 "C67": "The theorem about storing and loading events is applied twice. It is shown that what is loaded meets its hypotheses again: sizes on the wire are those of before (permutation of item shapes), what the writer adds to collections is there already, narrowing to float twice is narrowing once.",
 "C68": "The bytes of a file are described by a grammar of XDR items, with tables at any positions. Each reading function is shown to read the items it should (a relation Reads closed under sequencing); the loop over tables and events by induction on what is left.",
 "C69": "The three loops over the particles have invariants: parents and daughters are functions of the index, the third loop adds links X/T that are symmetric and complete, and its counter is the number of undecayed particles.",
 "C70": "Decimal digits by linear arithmetic; the table of charges is compared with the quark content.",
 "C71": "The programs are modelled as reading with readStream and writing each delivery. The theorems on readStream (C33), on copies of events (C67), on what is left after a crash (C65) and on writing and reading (C31, C32) are put together; the lengths of the copies are bounded by those of the originals.",
 "C72": "Particles are numbers with attributes and lists of parents and daughters. The search for the hard final state is compared with a definition of it; the loop over the particles is described by an invariant for the flag and the counters; the decay chain of the Higgs boson is followed by induction over its length, with fuel for the loop.",
 "C73": "The loop that fills the arrays is an induction over the collection; addParent of fromHepEvt is followed for all entries; both are put together. Conversions between float and double are parameters.",
 "C74": "Each function of the reader is followed for arbitrary bytes, with the invariant that the stream shows one of the files; every place at which the model has undefined behaviour is traced back to one of ten faults of a file, which the specification lists. One file for each fault shows that it is one.",
 "C75": "The same induction with the outcome of a loop that does not end: positions grow unless a record or block has length zero, and the chain of access records is finite unless it has a cycle (pigeonhole over positions).",
 "C76": "cmake/lcio.xml.in is translated to terms of a small language (tools/format.py, Spec/FormatData.lean), whose meaning is a function from named fields to bytes (Spec/Format.lean). For each kind of object the fields are named once; the bytes written by the model of the handler are shown to be the meaning of the description.",
 "C77": "The same description, for every version number: the model of each read function, run on the meaning of the description, gives the object with the fields that are present in this version. Relocation as in C39-C44.",
 "C78": "Every byte of the record is covered by some item, so that the record is a function of its items: pointers and padding included.",
 "C79": "The fourth loop of readEvent is an induction over the entries, on top of the result for LCStdHepRdr; the list of parents and daughters is given in closed form for all mother numbers.",
 "C80": "Histories of calls by induction; `find` is related to first occurrences; for texts of five fields the places of the names are computed, so that their order is that of the fields.",
 "C81": "One use of the class is related to a function from names to numbers; uses one after the other by induction.",
 "C82": "Induction over the calls, with the collection at the time of each call as a parameter; typed vectors by induction over the collection.",
 "C83": "The state after any history is given in closed form (registration and number of calls), by induction from the end of the history; texts byte for byte.",
 "C84": "The program is modelled on a disk of named files. Closed files: initAppend finds the record at the end and close writes the same bytes again. Others: recreateEventMap is followed by induction over the layout, then close writes only index and access records to the emptied file, which are read with the theorems of C33.",
 "C85": "The event map of a new reader is that of C28; the calls before keep the random access manager and the bytes of the stream, and createEventMap does not depend on the position of the stream. The program by induction over the names.",
 "C86": "Readers are opened in any state; what uses keep (names, index, map) is an invariant over any history of uses, and reading afterwards is that of C31 with the names kept.",
 "C87": "SIO::SIOReader is modelled with a heap of events and run headers and its two pointers, around the reader of C31; that the heap holds exactly what the pointers point to is an invariant of any calls without exceptions, and after an exception a dangling pointer stays until the next call of its kind.",
 "C88": "The sets of listeners are lists sorted by address; listeners are arbitrary functions that may change what they are given, throw, register and remove. The loop of the reader over its set is modelled with its iterator, so that removing the current listener is undefined. Proved by induction over the history, the set and what C33 says is delivered.",
 "C89": "The program is the composition of the reader of C33, the rewriting of C71 and the writer of C54; that each part holds copies of what it was given comes from these, and the parts are put together by induction.",
 "C90": "The main thread and the tasks are a transition system, with one step for each access to what they share. Safety is an invariant of all executions; that it can end is shown by finishing all tasks and then running the main thread; that it does end by a measure that all steps but those of polling decrease, and a second one for polling once all tasks have returned.",
 "C91": "A specification keeps for each file the sessions in which it was written, and what has been written since the open file was opened. The model of the writer with a disk refines it: an invariant relates the stream and the random access manager to those of a writer that was only used for this file (the session model of C27-C35); opening, writing and closing preserve it, and the result follows by induction over the calls.",
 "C92": "Objects in memory have pointers to the parts that they own; the specification has values. An invariant relates them (each part belongs to exactly one object), it is preserved by all calls in the cases in which copying works, and for each other case it is proved what goes wrong after any history.",
 "C93": "The class is a record of its sizes, name and description. The values after any sequence of setters by induction over it; files through the theorem for stored generic objects (C44); the description is compared with one that is made from the lists of names; the wrapping objects have an own small memory model for who deletes the data. That data from files is never deleted (C93_loaded) is an invariant of this memory: no object owns it.",
 "C94": "An array of the program is a list that cannot grow; writing or reading outside of it is undefined. The loops by induction over the vector; for strings the invariant is that everything in front of the place and behind the room for the remaining strings is kept. Elements by number: one function for each function of the interface. Vectors are of the simple kind or objects, and the casts of the interface accept only one of them.",
 "C95": "The program with its counters as a function of the options and the files. The counters by induction over the events read (`allEvents`), the range and the rejected options by cases over the options, and the loop with the theorems about sequential reading (C31, C32) and skipping (C34). Division of `float` numbers is a parameter that is exact for integers below 2^24.",
 "C96": "The threads, the mutex and the main thread as a transition system whose steps are reading an event, taking the mutex, printing a piece, and waiting for a thread. An invariant says what has been printed: whole events, and the beginning of one if the mutex is taken. Termination by the number of steps left, from the lengths of the files.",
 "C97": "The printing functions as functions to texts. That texts determine their contents by cutting them at characters that cannot be in the parts before; the map of positions by induction over the collection; the list of descendants by induction over the depth and, inside, over the daughters, with the set of numbers that each call uses; it ends by a rank of the particles; the columns of a particle against a list of its values and a relation for the endpoint (`EndsAt`).",
 "C98": "The program as a loop over the models of the StdHep readers (C69, C79) and of the writer (C31). The loop is a session of the writer by induction over the events of the reader; the sizes of the records are bounded by the number of particles; reading by C31, C39 and C40, with the daughters computed from the parents by symmetry of the relations.",
 "C99": "Spec.Sound says what can be relied on in an event: classes, elements, addresses and pointers, with the lists of objects and pointers of each class in Spec/Sound.lean. Lcio/SoundLemmas.lean proves for every reading program (all classes, all versions) which objects it makes and that it only tags objects that it has made, Lcio/SoundEvent.lean follows this through the blocks of a record, relocation, the event and the restoring of parents and daughters, and Lcio/SoundReader.lean through all calls of a reader, with the invariants of C74.",
 "C100": "Util.lctypename tries the classes in the order of the code; castsTo is dynamic_cast. Case analysis over the classes, and C99 for elements of events.",
 "C101": "Util.dumpMain has the arguments, the variable and the files as arguments; it calls the model of the reader. The theorems follow from C30 and C34, and from the round trip of decimal numbers through atoi.",
 "C102": "Util/DumpDetailed.lean models which objects and parameters are used when an event is printed (LCTOOLS.cc:83-1275 and the lcio_short operators of Operators.cc), with undefined behaviour for null pointers and objects of another class; the text is left out. Spec/Printable.lean says what an event needs besides what C99 gives. Proved by going through the classes.",
 "C103": "Util/DumpDetailed.lean models `header` of Operators.cc:249-267 with its static variable. Induction over the collections printed.",
 "C104": "Views are modelled with iterators as integers and sizes as 64 bit words (Sio/Span.lean); an induction over the chain of calls shows that the view is a slice of the buffer (Sio/SpanLemmas.lean), and that all that can be seen through it is the list of bytes that the specification (Spec/Views.lean) gives.",
 "C105": "The program is modelled with the reader that is opened and closed again and again (Util/Anajob.lean). That the access manager gives the same numbers after it was cleared comes from the induction over the sessions of C28, what is read from C86; loops by induction.",
 "C106": "The loop is modelled for any arithmetic of float and double (Lcio/Closest.lean), the comparison on bit patterns (Lcio/Float.lean). Induction over the states: what was found is the first of the least of those seen. Spec/Closest.lean says what that means.",
 "C107": "What was loaded can be stored and copied again (Lcio/CopyLemmas5.lean), and being the same event is transitive (Lcio/SameLemmas.lean). With these, the theorems about lcio_split_file (C89) and lcio_merge_files (C71) are put together: the files that the split writer makes hold what was distributed. For stages, merging is done group by group by induction on the list of groups (Props/Stages.lean).",
 "C108": "The two constructors of ILDCellIDEncoder on top of the model of CellIDEncoder (C51); a comma separates the tokens of a text in general, so the loop that adds fields starts with the canonical ones.",
 "C109": "The functions of the interface are sequences of the setters of C64 and loops over arrays of the program; programs are lists of calls. By induction over the calls; what was given for each hit and what was set last are computed from the calls only.",
 "C110": "The event that was loaded and the extended event are both instances of storing and loading; that the old collections are the same is the argument for copies (C67) with the list of collections replaced by any list that has them in order, where the daughters of old particles are restored from old particles only.",
 "C111": "Model of the shell in Util/Lsh.lean on top of the model of readers: the global variables are a structure, each command is a function on it, and the main loop runs over lists of words. The specification (Spec/Lsh.lean) describes the place by a list of numbers and says what is shown there in terms of what was written to the file. An invariant (Stands) connects the two and is kept by every command, so the theorem holds for all sequences of commands; the reader is treated with the lemmas for readers that are used several times (C86) and for searching (C30).",
 "C112": "Simulation: the writer on the full disk against the writer on a disk without limit, record by record; the file is the beginning of the other one. What can be read from it is C65.",
 "C113": "Util/Printing.lean models the format of a stream (width, fill character, base, sign, alignment, precision, notation) and the operators as lists of insertions. Abstract interpretation: which parts of the format are known after the first insertions; operators that set all parts they use (steady) print the same for all formats, operators that leave the format as it was (tidy) do not disturb others.",
 "C114": "Util/SioDump.lean models dump_records. Induction over the records; the blocks of what was written are those of C12, after the codec of C16.",
 "C115": "Lcio/MtDisk.lean: the steps of C35 on a stream that can hold a limited number of bytes (C112). Invariant over any schedule: the calls that succeeded are a sequential order, and if the disk is full one more call gives the bytes of the file, up to the limit. What can be read is C65.",
 "C116": "Util/FortranIo.lean: each function with its try block around the model of the writer on a full disk (C112) and of the reader (C31): it returns a code, an exception leaves it and ends the program, or the behaviour is undefined. Proved by translating what C112, C65 and C31 say about exceptions to what the functions return.",
 "C117": "Util/NavRefs.lean: the maps of the navigator with the nodes allocated for them; a reference is a node, and the use of one in a deleted node is undefined. Proved with an invariant (every node of the map holds the vectors of the relations of its object) and what each call does to nodes, against the list of relations of C53 (Spec/Navigator.lean, Spec/NavRefs.lean).",
 "C118": "Lcio/NameList.lean: the event of C46 with the vector of names that getCollectionNames fills and points to, and a loop over it by number with any calls for each name. Induction over the turns of the loop.",
 "C119": "Lcio/Elements.lean: the event of C46 and C63 with the elements and flag words of collections; deletion of objects one after the other, with the second deletion of an object undefined. What is in the collections and which are subsets is said in terms of the calls (Spec/Elements.lean). Invariant: what is in a collection is a sublist of what was added to it; the list of what is deleted then has no duplicates.",
 "C120": "Lcio/Ext.lean: objects with maps of shared pointers to places, which are destroyed when no object has them any more; deletion as in C119. Spec/Ext.lean says from the calls what is attached, what was given away and which objects exist. Invariants: nothing is in two places that own it, and what was deleted was in a place that no object has; without copies, every object has places of its own that hold what is attached.",
 "C121": "Util/MergeDisk.lean: the programs of C71 with the writer of C112, stopping at the first call that throws; the destructor closes the writer, and an exception that leaves it terminates the program. C112 is applied to the calls that were made.",
 "C122": "Util/MergeNames.lean: the program of C71 with all files on the disk; the order in which the files are opened is that of the code. Spec/MergeNames.lean says which name the new file has. By C71, applied to the files as they are when they are read.",
 "C123": "Util/RemoveLoop.lean: four loops that call the functions of the collection (Lcio/Setters.lean). By induction on the elements that are left to be visited."
}