{"id": "C01", "title": "Fixed-size array round trip", "statement": "An array of 1-, 2-, 4- or 8-byte elements written with write_device::data and read back with read_device::data from the position it was written at returns exactly the same elements, whatever was in the buffer before and whatever is written after it, for arrays below 4 GiB.", "quantifier": "all element sizes, all arrays shorter than 2^32-3 bytes, all prior buffer contents and cursor positions, all later writes", "why_tests_cant": "The value space (2^64 doubles) times array lengths times cursor positions is infinite; a test fixes a handful.", "anchors": ["sio/include/sio/api.h: api::read, api::write", "sio/src/memcpy.cc: memcpy::reverse_copy", "sio/include/sio/io_device.h: write_device::data, read_device::data"]}
{"id": "C02", "title": "Wire format is big-endian, zero padded to four bytes", "statement": "The bytes that write_device::data appends for an array are the big-endian bytes of each element in order, followed by zero bytes up to the next multiple of four, and the cursor advances by exactly that length; a device that starts at a multiple of four stays at multiples of four through any sequence of writes.", "quantifier": "all element sizes and arrays below 4 GiB, all write sequences", "why_tests_cant": "Interoperability with other readers (Java, Fortran) depends on every byte of every encoding.", "anchors": ["sio/include/sio/api.h: api::write", "sio/src/memcpy.cc: memcpy::reverse_copy"]}
{"id": "C03", "title": "Write device never writes outside its buffer and never loses bytes", "statement": "Any sequence of write_device data/pointer_to/pointed_at calls (each array below 4 GiB) and successful seeks grows the buffer when needed, never writes outside it, never shrinks it, and leaves every byte outside the written range unchanged.", "quantifier": "all buffers, all cursor positions up to the size, all write sequences", "why_tests_cant": "Memory safety over all call histories; the growth policy depends on the interplay of size, cursor and length.", "anchors": ["sio/include/sio/api.h: api::write", "sio/src/buffer.cc: buffer::expand", "sio/src/io_device.cc: write_device::seek"]}
{"id": "C04", "title": "Read device never reads outside its buffer", "statement": "On any byte buffer, including corrupt ones, every read_device::data call either returns data that lies entirely inside the buffer or throws; it never reads past the end.", "quantifier": "all byte buffers, cursor positions, element sizes and counts a file can ask for", "why_tests_cant": "Adversarial or corrupt inputs are unbounded.", "anchors": ["sio/include/sio/api.h: api::read", "sio/include/sio/io_device.h: read_device::data(vector)"]}
{"id": "C05", "title": "String round trip", "statement": "A std::string of fewer than 2^31 bytes, including empty strings and strings with embedded NUL bytes, written to a write_device is read back identically from the same position.", "quantifier": "all byte strings shorter than 2^31, all positions and surroundings", "why_tests_cant": "Infinite domain.", "anchors": ["sio/include/sio/io_device.h: write_device::data<std::string>, read_device::data<std::string>"]}
{"id": "C06", "title": "Vector round trip independent of the target's old contents", "statement": "A std::vector of numbers or of strings written to a write_device is read back as exactly that vector, whatever the target vector contained before the read.", "quantifier": "all vectors with fewer than 2^31 elements and 4 GiB, all previous contents of the target", "why_tests_cant": "Depends on the prior state of the target object for every input.", "anchors": ["sio/include/sio/io_device.h: read_device::data(vector<T>&), read_device::data(vector<string>&), write_device::data(vector)"]}
{"id": "C07", "title": "Name validation accepts exactly identifiers", "statement": "sio::validate / valid_record_name accept a name exactly when it is a C identifier ([A-Za-z_][A-Za-z0-9_]*), and for records when it is also at most 64 bytes long.", "quantifier": "all byte strings", "why_tests_cant": "Infinite domain of strings.", "anchors": ["sio/include/sio/definitions.h: validate, valid_record_name"]}
{"id": "C08", "title": "Version words", "statement": "Encoding (major, minor) as one 32-bit word and decoding it gives back the pair for all 16-bit values, and comparing encoded words orders versions lexicographically, so the version gates in the decoders mean what they say.", "quantifier": "all pairs of 16-bit numbers", "why_tests_cant": "2^32 pairs and 2^64 comparisons.", "anchors": ["sio/src/version.cc: version::encode_version, major_version, minor_version"]}
{"id": "C09", "title": "Pointer relocation restores the object graph", "statement": "When a record is written and read back, every stored reference to an object whose tag is in the same record (in any block that is decoded) refers to the re-read copy of that object; null references and references to objects not in the record read back as null.", "quantifier": "all sequences of pointer and tag writes over all blocks of a record, all memory addresses of the objects, all subsets of decoded blocks", "why_tests_cant": "All object graphs (including sharing and cycles) and all allocation addresses; the match numbers depend on address order.", "anchors": ["sio/src/api.cc: write_relocation, read_relocation", "sio/src/io_device.cc: pointer_to, pointed_at"]}
{"id": "C10", "title": "Relocation on read writes every registered slot and nothing else", "statement": "Pointer relocation after reading sets each registered pointer slot to the address registered for its match word (the first one registered), or to null when there is none, and changes no other memory.", "quantifier": "all pointer-to and pointed-at tables, all memories", "why_tests_cant": "All tables.", "anchors": ["sio/src/api.cc: read_relocation", "sio/src/io_device.cc: read_device::pointer_relocation"]}
{"id": "C11", "title": "Block round trip with selective decoding", "statement": "The blocks of a record are handed, in order and once each, to the decoder registered under their name together with the version they were written with and a device positioned at their payload; blocks without a decoder are skipped without influencing the decoding of any other block.", "quantifier": "all lists of blocks (names, versions, payloads), all sets of decoders", "why_tests_cant": "All combinations of blocks and decoders.", "anchors": ["sio/src/api.cc: write_blocks, extract_block, read_blocks"]}
{"id": "C12", "title": "Block directory", "statement": "read_block_infos on the data of a written record lists exactly the written blocks in order with their names, versions and payload lengths, and their [start,end) ranges tile the record data.", "quantifier": "all lists of blocks", "why_tests_cant": "All lists of blocks.", "anchors": ["sio/src/api.cc: read_block_infos, extract_block, write_blocks"]}
{"id": "C13", "title": "Decoding any record data terminates", "statement": "read_blocks and read_block_infos terminate on every byte buffer, well-formed or not.", "quantifier": "all byte buffers", "why_tests_cant": "Non-termination on a corrupt length word cannot be excluded by sampling.", "anchors": ["sio/src/api.cc: read_blocks, read_block_infos, extract_block"]}
{"id": "C14", "title": "Record header describes the record", "statement": "write_record(name, buffer, blocks) yields a buffer whose header carries the header length, the options with the compression bit cleared, the data length (twice) and the name; reading the header back from a stream returns exactly this information and the file range the record occupies.", "quantifier": "all valid names, options, block lists and stream positions", "why_tests_cant": "All names, payloads and positions.", "anchors": ["sio/src/api.cc: write_record, read_record_info"]}
{"id": "C15", "title": "Sequential reading returns exactly the records written", "statement": "For every sequence of records written one after the other to a file, repeatedly reading records returns exactly these records (name, options, data bytes) in order and then reports end of file.", "quantifier": "all finite sequences of records, compressed or not, with every data length modulo four", "why_tests_cant": "Padding and length arithmetic must agree for every history of writes.", "anchors": ["sio/src/api.cc: write_record(stream,...), read_record_info, read_record_data, read_record"]}
{"id": "C16", "title": "Compression is transparent", "statement": "For every lossless codec, a record that is compressed, written, read and uncompressed yields the same data bytes as the uncompressed record, at every compressed length modulo four.", "quantifier": "all records, all lossless codecs", "why_tests_cant": "All payloads and compressed sizes.", "anchors": ["sio/include/sio/api.h: compress_record", "sio/src/api.cc: write_record(stream,hdr,data)", "sio/src/compression/zlib.cc"]}
{"id": "C17", "title": "Record filtering is exact", "statement": "api::read_records with a validity predicate delivers to the callback exactly the records that satisfy the predicate, in file order, up to and including the first one for which the callback returns false.", "quantifier": "all record sequences, predicates and callbacks", "why_tests_cant": "All predicates and sequences.", "anchors": ["sio/include/sio/api.h: read_records"]}
{"id": "C18", "title": "Skipping records", "statement": "skip_n_records(n) leaves the stream at the start of the n-th record after the current one, and go_to_record(name) at the start of the next record with that name.", "quantifier": "all record sequences, all n, all names", "why_tests_cant": "All n and sequences.", "anchors": ["sio/src/api.cc: skip_n_records, skip_records, go_to_record"]}
{"id": "C19", "title": "Truncated files yield a prefix and never corrupt data", "statement": "If a file is cut at any byte (crash, full disk), sequential reading of the remains returns exactly the records that are completely contained in it, and then fails or reports end of file; it never returns a record that was not written.", "quantifier": "all record sequences and every cut position", "why_tests_cant": "Every crash point of every history.", "anchors": ["sio/src/api.cc: read_record_info, read_record_data"]}
{"id": "C20", "title": "Reading a record header is memory safe", "statement": "read_record_info never writes outside its header buffer, whatever the bytes of the file are.", "quantifier": "all files and stream positions", "why_tests_cant": "Adversarial inputs.", "anchors": ["sio/src/api.cc: read_record_info"]}
{"id": "C21", "title": "Run/event keys are encoded without collisions", "statement": "Converting a RunEvent to its 64-bit form and back is the identity for all 32-bit run and event numbers (including negative ones), so two different (run,event) pairs never share a key.", "quantifier": "all pairs of 32-bit integers", "why_tests_cant": "2^64 pairs.", "anchors": ["src/cpp/include/SIO/RunEventMap.h: RunEvent", "src/cpp/src/SIO/RunEventMap.cc"]}
{"id": "C22", "title": "RunEvent ordering", "statement": "The ordering of RunEvent keys is a strict weak ordering in which all run headers come first, ordered by run number, followed by the events ordered by run and then by event number.", "quantifier": "all triples of keys", "why_tests_cant": "Axioms over all triples.", "anchors": ["src/cpp/src/SIO/RunEventMap.cc: operator<"]}
{"id": "C23", "title": "RunEventMap behaves as a map and counts correctly", "statement": "After any sequence of additions, looking up a (run,event) pair gives the position of the last addition of this pair and 'not found' otherwise, and the reported numbers of runs and events equal the numbers of distinct run and event keys added.", "quantifier": "all sequences of additions and clears with event numbers >= -1", "why_tests_cant": "All histories.", "anchors": ["src/cpp/src/SIO/RunEventMap.cc: add, getPosition, getNumberOfRunRecords, getNumberOfEventRecords"]}
{"id": "C24", "title": "Listing of runs and events", "statement": "getRuns and getEvents list exactly the distinct runs and the distinct (run,event) pairs of the file in increasing order, once each.", "quantifier": "all files", "why_tests_cant": "All contents.", "anchors": ["src/cpp/src/MT/LCReader.cc: getRuns, getEvents", "src/cpp/src/SIO/RunEventMap.cc"]}
{"id": "C25", "title": "Random access index round trip", "statement": "The index block written for a set of (run,event,position) entries reads back as exactly this set of entries.", "quantifier": "all sets of entries", "why_tests_cant": "The compact encodings (single run, 32-bit offsets) switch on properties of the whole set.", "anchors": ["src/cpp/src/SIO/SIOIndexHandler.cc: read, write"]}
{"id": "C26", "title": "Random access record round trip and fixed size", "statement": "A random access record reads back with the same field values it was written with, and it always occupies exactly the fixed number of bytes that the reader seeks back from the end of the file.", "quantifier": "all field values", "why_tests_cant": "All field values; the fixed size is assumed by the seek from end of file.", "anchors": ["src/cpp/src/SIO/SIORandomAccessHandler.cc: read, write", "src/cpp/src/SIO/LCIORandomAccessMgr.cc: writeRandomAccessRecords"]}
{"id": "C27", "title": "File summary counts", "statement": "The file-level random access record written on close reports the number of runs and events in the file and their smallest and largest (run,event), and where the first and the last random access record are, after any number of write/append sessions.", "quantifier": "all sequences of sessions", "why_tests_cant": "All histories of append sessions.", "anchors": ["src/cpp/src/SIO/LCIORandomAccessMgr.cc: createFileRecord, initAppend, writeRandomAccessRecords"]}
{"id": "C28", "title": "Direct access finds every event", "statement": "After any number of write and append sessions, the event map built from the chain of random access records contains exactly the runs and events written, each with the file position of its record.", "quantifier": "all sequences of sessions", "why_tests_cant": "All histories.", "anchors": ["src/cpp/src/SIO/LCIORandomAccessMgr.cc: createEventMap, writeRandomAccessRecords, createFromEventMap"]}
{"id": "C29", "title": "Appending preserves existing data", "statement": "Opening an existing file for append and writing more records leaves all earlier run headers and events readable and in their place.", "quantifier": "all existing files (with or without random access records) and all appended data", "why_tests_cant": "All prior contents.", "anchors": ["src/cpp/src/MT/LCWriter.cc: open", "src/cpp/src/SIO/SIOWriter.cc: open"]}
{"id": "C30", "title": "Direct and sequential access agree", "statement": "readEvent(run,evt) by direct access returns the same event that a sequential search for this (run,event) returns when the pair is unique in the file, and reports 'not found' exactly when the sequential search does.", "quantifier": "all files with random access records, all (run,event) pairs", "why_tests_cant": "All files and queries.", "anchors": ["src/cpp/src/MT/LCReader.cc: readEvent, readNextEvent"]}
{"id": "C31", "title": "Events come back in the order written", "statement": "For every sequence of writeRunHeader/writeEvent calls, readNextRunHeader/readNextEvent return the run headers/events in the order written and null after the last one.", "quantifier": "all sequences of writes and reads", "why_tests_cant": "All histories.", "anchors": ["src/cpp/src/MT/LCReader.cc: readNextEvent, readNextRunHeader", "src/cpp/src/MT/LCWriter.cc: writeEvent, writeRunHeader"]}
{"id": "C32", "title": "Multi-file reading is concatenation", "statement": "Opening a list of files and reading events sequentially returns the events of all files in file order, as if they were one file.", "quantifier": "all lists of files, including empty ones", "why_tests_cant": "All lists of files.", "anchors": ["src/cpp/src/MT/LCReader.cc: readNextEvent, readStream, open"]}
{"id": "C33", "title": "readStream delivers the requested number of records", "statement": "readStream(listeners, n) passes the next n run and event records in order to the listeners, and throws end-of-data if fewer remain.", "quantifier": "all files and all n", "why_tests_cant": "All n.", "anchors": ["src/cpp/src/MT/LCReader.cc: readStream"]}
{"id": "C34", "title": "skipNEvents(n) equals reading n events", "statement": "Reading after skipNEvents(n) continues with the event that would have been returned by the (n+1)-th readNextEvent.", "quantifier": "all files and all n >= 0", "why_tests_cant": "All n and files.", "anchors": ["src/cpp/src/MT/LCReader.cc: skipNEvents"]}
{"id": "C35", "title": "Concurrent writing is atomic per event", "statement": "When several threads write events and run headers through one MT writer, the file contains each record group (event header followed immediately by its event) exactly once, uninterleaved, in some order consistent with each thread's program order, and every entry of the event map points at its record.", "quantifier": "all interleavings of any number of threads, all events", "why_tests_cant": "Unbounded number of schedules.", "anchors": ["src/cpp/src/MT/LCWriter.cc: writeEvent, writeRunHeader"]}
{"id": "C36", "title": "Parameters round trip", "statement": "Any set of named int, float and string vector parameters reads back with the same keys and values.", "quantifier": "all parameter maps", "why_tests_cant": "All maps.", "anchors": ["src/cpp/src/SIO/SIOLCParameters.cc: read, write"]}
{"id": "C37", "title": "Run header round trip", "statement": "Run number, detector name, description, active subdetectors and parameters of a run header read back unchanged.", "quantifier": "all run headers", "why_tests_cant": "All field values.", "anchors": ["src/cpp/src/SIO/SIORunHeaderHandler.cc: read, write"]}
{"id": "C38", "title": "Event header round trip lists the stored collections", "statement": "Run number, event number, time stamp, detector name, parameters and the list of stored collections (name and type) of an event read back unchanged; transient collections and, when the writer is given a list of names, collections not on that list are the only ones left out.", "quantifier": "all events", "why_tests_cant": "All field values and collection sets.", "anchors": ["src/cpp/src/SIO/SIOEventHandler.cc: read, write"]}
{"id": "C39", "title": "MCParticle round trip", "statement": "All persistent attributes and parent references of MCParticles read back as written, up to the documented float precision of momentum and mass, for every combination of status bits.", "quantifier": "all particles, all versions of the current format", "why_tests_cant": "All values and flag combinations.", "anchors": ["src/cpp/src/SIO/SIOParticleHandler.cc: read, write"]}
{"id": "C40", "title": "Parent/daughter relations are restored", "statement": "After reading an event, p is listed as a daughter of q exactly when q is listed as a parent of p, with the multiplicity written, for all MCParticles of all collections of the event.", "quantifier": "all event graphs over any number of MCParticle collections", "why_tests_cant": "All graphs.", "anchors": ["src/cpp/src/SIO/SIOParticleHandler.cc: restoreParentDaughterRelations"]}
{"id": "C41", "title": "Tracker hit types round trip", "statement": "SimTrackerHit, TrackerHit, TrackerHitPlane, TrackerHitZCylinder, TrackerRawData, TrackerData, TrackerPulse and TPCHit objects read back with all persistent attributes that their collection flags select, for every flag word.", "quantifier": "all objects and flag words", "why_tests_cant": "All values and flag combinations.", "anchors": ["src/cpp/src/SIO/SIOSimTrackHitHandler.cc", "src/cpp/src/SIO/SIOTrackerHitHandler.cc", "src/cpp/src/SIO/SIOTrackerHitPlaneHandler.cc", "src/cpp/src/SIO/SIOTrackerHitZCylinderHandler.cc", "src/cpp/src/SIO/SIOTrackerRawDataHandler.cc", "src/cpp/src/SIO/SIOTrackerDataHandler.cc", "src/cpp/src/SIO/SIOTrackerPulseHandler.cc", "src/cpp/src/SIO/SIOTPCHitHandler.cc"]}
{"id": "C42", "title": "Calorimeter hit types round trip", "statement": "CalorimeterHit, SimCalorimeterHit and RawCalorimeterHit objects read back with all persistent attributes that their collection flags select, for every flag word.", "quantifier": "all objects and flag words", "why_tests_cant": "All values and flag combinations.", "anchors": ["src/cpp/src/SIO/SIOCalHitHandler.cc", "src/cpp/src/SIO/SIOSimCalHitHandler.cc", "src/cpp/src/SIO/SIORawCalHitHandler.cc"]}
{"id": "C43", "title": "Track, cluster, reconstructed particle and vertex round trip", "statement": "Tracks (with all track states), clusters (with PIDs and hit weights), reconstructed particles and vertices read back with all persistent attributes and references, for every flag word.", "quantifier": "all objects and flag words", "why_tests_cant": "All values and flag combinations.", "anchors": ["src/cpp/src/SIO/SIOTrackHandler.cc", "src/cpp/src/SIO/SIOClusterHandler.cc", "src/cpp/src/SIO/SIOReconstructedParticleHandler.cc", "src/cpp/src/SIO/SIOVertexHandler.cc"]}
{"id": "C44", "title": "Relations, vectors and generic objects round trip", "statement": "LCRelation, LCIntVec/LCFloatVec/LCStrVec and LCGenericObject collections read back with all attributes, for every flag word and for fixed and variable size objects.", "quantifier": "all objects and flag words", "why_tests_cant": "All values and flag combinations.", "anchors": ["src/cpp/src/SIO/SIOLCRelationHandler.cc", "src/cpp/include/SIO/SIOLCVecHandler.h", "src/cpp/src/SIO/SIOLCGenericObjectHandler.cc"]}
{"id": "C45", "title": "Lazily unpacked events equal eagerly unpacked ones", "statement": "With lazy unpacking the collections obtained from an event are the same as with immediate unpacking, for any sequence of getCollection, takeCollection and removeCollection calls.", "quantifier": "all events and call sequences", "why_tests_cant": "All call histories.", "anchors": ["src/cpp/src/IOIMPL/LCEventLazyImpl.cc"]}
{"id": "C46", "title": "Event collections behave as a name-indexed map", "statement": "addCollection/getCollection/removeCollection/getCollectionNames behave as a finite map from valid names to collections: duplicates and invalid names are rejected without effect, and names are listed in lexicographic order.", "quantifier": "all sequences of calls", "why_tests_cant": "All histories.", "anchors": ["src/cpp/src/IMPL/LCEventImpl.cc"]}
{"id": "C47", "title": "Read-only objects cannot be modified", "statement": "After an event has been read in read-only mode every setter of the event, its collections and their elements throws ReadOnlyException and leaves the object unchanged.", "quantifier": "all objects and setter sequences", "why_tests_cant": "All setters and states.", "anchors": ["src/cpp/src/IMPL/AccessChecked.cc", "src/cpp/src/IMPL/LCEventImpl.cc: setAccessMode", "src/cpp/src/IMPL/LCCollectionVec.cc: setReadOnly"]}
{"id": "C48", "title": "LCParameters behave as typed maps", "statement": "setValue(s)/getXVal(s)/getXKeys/getN of LCParametersImpl behave as three independent maps (int, float, string) from key to vector: a set replaces the old values of that key and type only, and missing keys read as 0 or the empty string.", "quantifier": "all sequences of calls", "why_tests_cant": "All histories.", "anchors": ["src/cpp/src/IMPL/LCParametersImpl.cc"]}
{"id": "C49", "title": "Bit fields are independent and round trip", "statement": "Assigning an in-range value to a field of a BitField64 makes that field read back as the value and leaves every other field unchanged; out-of-range values are rejected by an exception.", "quantifier": "all non-overlapping field layouts, all field values and assignment orders", "why_tests_cant": "All layouts and 64-bit words.", "anchors": ["src/cpp/src/UTIL/BitField64.cc: BitFieldValue, addField", "src/cpp/include/UTIL/BitField64.h"]}
{"id": "C50", "title": "Field descriptions reproduce the layout", "statement": "BitField64(fieldDescription()) has the same field names, offsets, widths and signedness as the original.", "quantifier": "all field layouts", "why_tests_cant": "All layouts.", "anchors": ["src/cpp/src/UTIL/BitField64.cc: fieldDescription, init"]}
{"id": "C51", "title": "Cell IDs decode to what was encoded", "statement": "A cell ID encoded with CellIDEncoder, stored in a hit and decoded with CellIDDecoder gives back every field value, for every layout, including those that need the second 32-bit word.", "quantifier": "all layouts and field values, all orders of decoding hits", "why_tests_cant": "All layouts and words.", "anchors": ["src/cpp/include/UTIL/CellIDEncoder.h", "src/cpp/include/UTIL/CellIDDecoder.h"]}
{"id": "C52", "title": "Calendar time conversion is exact", "statement": "Converting an LCTime time stamp to calendar components and back gives the same time stamp, the components are always a valid date, and dates convert in chronological order.", "quantifier": "all non-negative time stamps and all valid dates", "why_tests_cant": "All 64-bit time stamps.", "anchors": ["src/cpp/src/UTIL/LCTime.cc"]}
{"id": "C53", "title": "Relation navigator is symmetric", "statement": "After any sequence of addRelation/removeRelation calls, b is listed in getRelatedToObjects(a) with weight w exactly when a is listed in getRelatedFromObjects(b) with weight w, and createLCCollection lists exactly these relations.", "quantifier": "all call sequences", "why_tests_cant": "All histories.", "anchors": ["src/cpp/src/UTIL/LCRelationNavigator.cc"]}
{"id": "C54", "title": "Split writing loses nothing", "statement": "Writing through LCSplitWriter distributes the run headers and events, in order and without loss or duplication, over consecutively numbered files with distinct names, starting a new file exactly when the current one exceeded the size limit.", "quantifier": "all write sequences, file sizes and limits", "why_tests_cant": "All histories.", "anchors": ["src/cpp/src/UTIL/LCSplitWriter.cc"]}
{"id": "C55", "title": "PID algorithm bookkeeping", "statement": "PIDHandler gives every algorithm added to a collection a distinct id, and id, name and parameter names stay consistent after any sequence of additions and after being stored with the collection and reloaded.", "quantifier": "all sequences of additions and reloads", "why_tests_cant": "All histories.", "anchors": ["src/cpp/src/UTIL/PIDHandler.cc", "src/cpp/src/UTIL/CollectionParameterMap.cc"]}
{"id": "C56", "title": "Run-time relations stay consistent", "statement": "After any sequence of set/add/remove/merge operations on bidirectional run-time relations, a refers to b exactly when b refers back to a.", "quantifier": "all operation sequences on all objects", "why_tests_cant": "All histories.", "anchors": ["src/cpp/include/LCRTRelations.h"]}
{"id": "C57", "title": "MCParticle parent/daughter lists are symmetric", "statement": "After any sequence of addParent calls p lists q as parent exactly as often as q lists p as daughter, and adding the same parent twice has no effect.", "quantifier": "all call sequences", "why_tests_cant": "All histories.", "anchors": ["src/cpp/src/IMPL/MCParticleImpl.cc: addParent, addDaughter"]}
{"id": "C58", "title": "Track states are unique per location", "statement": "A track never holds two track states for the same location other than AtOther, and getTrackState(loc) returns the state added for that location.", "quantifier": "all sequences of addTrackState calls", "why_tests_cant": "All histories.", "anchors": ["src/cpp/src/IMPL/TrackImpl.cc: addTrackState, getTrackState"]}
{"id": "C59", "title": "Simulated calorimeter hit energy is the sum of its contributions", "statement": "After any sequence of addMCParticleContribution calls the hit energy equals the initial energy plus the sum of all added energies in order, and the stored contributions sum to the added energy.", "quantifier": "all call sequences", "why_tests_cant": "All histories.", "anchors": ["src/cpp/src/IMPL/SimCalorimeterHitImpl.cc: addMCParticleContribution"]}
{"id": "C60", "title": "StdHep XDR reader and writer are inverse", "statement": "Values written with the lXDR writer (ints, doubles, strings, arrays) are read back unchanged by the lXDR reader and every successful write is reported as success.", "quantifier": "all values and arrays", "why_tests_cant": "All values.", "anchors": ["src/cpp/src/UTIL/lXDR.cc"]}
{"id": "C61", "title": "Flag words", "statement": "LCFlagImpl and BitSet32 set, clear and test exactly the addressed bit for bit numbers 0..31, and ignore other bit numbers.", "quantifier": "all words, all bit numbers and operation sequences", "why_tests_cant": "All words and sequences.", "anchors": ["src/cpp/src/IMPL/LCFlagImpl.cc", "src/cpp/include/UTIL/BitSet32.h"]}
{"id": "C62", "title": "Collections keep their names, types, flags and parameters", "statement": "The collections of an event that were stored and that the reader asks for come back in the same order with the same name, type, flag word, parameters and number of elements; only the parameters and the flag bit that LCIO itself sets when it writes vertices and generic objects may be added.", "quantifier": "all events with collections of all types, all flag words, parameters, lists of names for writer and reader", "why_tests_cant": "Writers change collections while they write them (initWriting), so all combinations of earlier parameters and flags matter.", "anchors": ["src/cpp/src/SIO/SIOObjectHandler.cc", "src/cpp/src/SIO/SIOVertexHandler.cc: initWriting", "src/cpp/src/SIO/SIOLCGenericObjectHandler.cc: initWriting", "src/cpp/src/SIO/SIOCollectionHandler.cc"]}
{"id": "C63", "title": "An event deletes each collection it owns exactly once", "statement": "When an event is destroyed, every collection that is in the event and was not handed out with takeCollection is deleted exactly once, taken collections are not deleted, and removeCollection deletes the collection it removes.", "quantifier": "all sequences of calls on an event before it is destroyed", "why_tests_cant": "Ownership depends on the whole history of additions, removals and takings.", "anchors": ["src/cpp/src/IMPL/LCEventImpl.cc: ~LCEventImpl, takeCollection, removeCollection", "src/cpp/include/IMPL/LCEventImpl.h"]}
{"id": "C64", "title": "A setter is read back by its getter and changes nothing else", "statement": "After a setter of an event data object, collection, event or run header has been called with usable arguments on an object that is not read-only, the getter that belongs to it returns the value that was set (or the old list with the new entry for functions that add), and all other getters return what they returned before.", "quantifier": "all classes of EVENT/IMPL objects, all their setters, all arguments and all states of the object", "why_tests_cant": "The statement is about every pair of setter and getter, every argument and every earlier state.", "anchors": ["src/cpp/src/IMPL/*.cc", "src/cpp/include/IMPL/*.h: set*, add*, get*"]}
{"id": "C65", "title": "A crash while writing loses only what was not finished", "statement": "If the machine stops while a writer adds to a file and only a prefix of what was written reaches the file, a reader of that file returns exactly a prefix of the run headers and events written, which includes everything of the closed sessions and every call that had finished within that prefix; after it the reader returns null or throws, and never returns data that were not written.", "quantifier": "all sessions of writing and appending, all contents, all numbers of bytes that reach the file, all sequences of reads", "why_tests_cant": "Every byte of every file is a possible crash point; a test can only try some of them.", "anchors": ["src/cpp/src/MT/LCWriter.cc: writeRunHeader, writeEvent, open, close", "src/cpp/src/SIO/SIOWriter.cc: open", "sio/src/api.cc: api::read_record_info, api::read_record_data, api::skip_n_records", "src/cpp/src/MT/LCReader.cc: readNextRecord, readStream"]}
{"id": "C66", "title": "Direct access also works for files that were not closed", "statement": "If a file has no records for direct access because its writer was not closed, opening it for direct access finds out where the run headers and events are: the same run headers and events are found as in a file that was closed.", "quantifier": "all files written with any run headers and events in any order by a writer that was not closed, with and without compression", "why_tests_cant": "Which records the recovery meets depends on the whole sequence of run headers and events in the file.", "anchors": ["src/cpp/src/SIO/LCIORandomAccessMgr.cc: createEventMap, recreateEventMap, readLCIORandomAccess", "sio/include/sio/api.h: api::skip_records"]}
{"id": "C67", "title": "Copying events from file to file changes nothing", "statement": "An event that was read from a file can be written to another file as it is, and the event read from that file equals the first one: header, names, types, flags and parameters of the collections, all attributes of all objects, subsets, and pointers between the objects.", "quantifier": "all events that can be stored and read, with all selections of collections by writer and reader, all options and contents of buffers", "why_tests_cant": "Readers lose precision, change the order of lists and leave out things while writers add parameters, so that a second round could change or reject what the first one accepted.", "anchors": ["src/cpp/src/SIO/*Handler.cc", "src/cpp/src/MT/LCReader.cc: readNextEvent", "src/cpp/src/MT/LCWriter.cc: writeEvent", "src/cpp/src/SIO/LCIORecords.cc"]}
{"id": "C68", "title": "StdHep files deliver their events in order", "statement": "After a StdHep file has been opened, reading returns every event of the file exactly once, in the order of the event tables, with its number and all numbers of its particles unchanged; begin run and end run records are skipped, and behind the last event every call reports the end of the file.", "quantifier": "all files with any header, any number of event tables and records of the versions 1 and 2, any events, any number of calls", "why_tests_cant": "The reader follows pointers from table to table and from there to the events, so that the result depends on the whole layout of the file.", "anchors": ["src/cpp/src/UTIL/lStdHep.cc: readFileHeader, readEvent, getEvent, EventTable::read, Event::read", "src/cpp/src/UTIL/lXDR.cc"]}
{"id": "C69", "title": "Collections made of StdHep events have the particles and relations of the events", "statement": "LCStdHepRdr makes one MCParticle for each entry of the event, in order, with its attributes; the daughters and parents are exactly those the event lists, symmetrically and without duplicates; entries 94 get the undecayed particles before them as parents as far as their number of daughters asks for; updateNextEvent adds the same collections and throws EndOfDataException at the end.", "quantifier": "all events with any number of particles, any mothers and daughters, all sequences of events", "why_tests_cant": "Relations are made in three passes over the event, each of which depends on what the others did with all other particles.", "anchors": ["src/cpp/src/UTIL/LCStdHepRdr.cc: readEvent, updateNextEvent", "src/cpp/src/IMPL/MCParticleImpl.cc: addParent, addDaughter"]}
{"id": "C70", "title": "Charges follow from the particle codes", "statement": "The charge that LCStdHepRdr computes for a particle code is that of its quarks for mesons, baryons and diquarks of any excitation, that of the particle for elementary particles and their partners, and opposite for antiparticles; it is defined for all codes that stand for particles.", "quantifier": "all 32 bit codes", "why_tests_cant": "There are four thousand million codes, and those for which the function leaves its table are not listed anywhere.", "anchors": ["src/cpp/src/UTIL/LCStdHepRdr.cc: threeCharge"]}
{"id": "C71", "title": "Merging files keeps all run headers and events", "statement": "lcio_merge_files makes one file from which the same run headers and events are read as from the input files, in the order of the files, with nothing changed, lost or added; run headers differ only in the parameter with the name of the file. copyfix, applied to a file whose writer crashed, makes a file with everything that was completely written.", "quantifier": "all lists of files written in any sessions, all run headers and events, all sequences of reads of the result, all points at which the writer of the input can have stopped", "why_tests_cant": "Reading, delivery to listeners, writing and reading again are combined for arbitrary contents; a test sees one combination.", "anchors": ["src/cpp/src/EXAMPLE/lcio_merge_files.cc", "src/cpp/src/EXAMPLE/copyfix.cc", "src/cpp/src/MT/LCReader.cc: readStream", "src/cpp/src/MT/LCWriter.cc: writeEvent, writeRunHeader, close"]}
{"id": "C72", "title": "Process flags say what is in the hard final state", "statement": "A ProcessFlag behaves like a set of bits, and decodeMCTruthProcess returns for every event with at most one Higgs boson the flags with their documented meaning: which particles, how many leptons, neutrinos and quarks the hard final state has, and what the Higgs boson decays to. The function ends.", "quantifier": "all lists of bits; all events with any number of particles, any relations between them and any particle codes, in the three forms of records that generators write", "why_tests_cant": "The hard final state is found by following relations in the whole event, and the flags depend on all particles found.", "anchors": ["src/cpp/include/UTIL/ProcessFlag.h", "src/cpp/src/UTIL/ProcessFlag.cc: decodeMCTruthProcess"]}
{"id": "C73", "title": "The HEPEVT common block holds the same event as the collection", "statement": "toHepEvt fills the Fortran common block with one entry for each MCParticle, in order, with its attributes, mothers and daughters; fromHepEvt makes a collection with one particle for each entry, its attributes and relations; one after the other gives back the event with the same relations and with values rounded to float.", "quantifier": "all events with up to 4000 particles and any relations, all contents of the common block before", "why_tests_cant": "Relations are written as intervals of positions and restored by looking at all entries, so that each particle depends on all others.", "anchors": ["src/cpp/src/CPPFORT/HEPEVT.cc: toHepEvt, fromHepEvt", "src/cpp/include/CPPFORT/hepevt0.h", "src/cpp/include/CPPFORT/hepevt1.h"]}
{"id": "C74", "title": "No file can lead a reader to undefined behaviour", "statement": "Whatever bytes are in the files, opening them and calling the methods of a reader in any order, also after calls that threw exceptions, gives results or throws exceptions; it does not read or write outside of buffers, and does not use null pointers or elements of empty containers.", "quantifier": "all contents of any number of files, all sequences of calls of readNextEvent, readNextRunHeader, skipNEvents, getNumberOfEvents, readRunHeader, readEvent, readStream and close, with and without direct access", "why_tests_cant": "Files can be damaged in any way; each length, pointer, name and position in a file can be wrong, and the check that is missing is only seen with the file that needs it.", "anchors": ["src/cpp/src/MT/LCReader.cc", "src/cpp/src/SIO/LCIORandomAccessMgr.cc: createEventMap", "src/cpp/src/SIO/LCIORecords.cc", "src/cpp/src/SIO/SIOParticleHandler.cc: restoreParentDaughterRelations", "sio/src/api.cc: read_record_info, read_record_data, extract_block, read_blocks"]}
{"id": "C75", "title": "Reading ends for every file", "statement": "Whatever bytes are in the files, opening them and each call of a method of a reader returns or throws an exception after a finite number of steps.", "quantifier": "all contents of any number of files, all sequences of calls, with and without direct access", "why_tests_cant": "The loops follow lengths and positions that are read from the file; that they get further cannot be seen from any number of files for which they do.", "anchors": ["src/cpp/src/MT/LCReader.cc", "src/cpp/src/SIO/LCIORandomAccessMgr.cc: createEventMap, recreateEventMap", "sio/include/sio/api.h: read_records, skip_records", "sio/src/api.cc: read_blocks"]}
{"id": "C76", "title": "Files have the documented format", "statement": "What is written as run header, event header, event, random access record and index is, byte for byte, what the description of the file format in lcio.xml says for the current version and the data of the objects.", "quantifier": "all run headers, events with collections of all 21 kinds, flag words and parameters, all random access records and indices", "why_tests_cant": "A program that reads files by the description meets all combinations of flags, sizes and pointers; writer and reader of the library can agree on something else without any test noticing.", "anchors": ["cmake/lcio.xml.in", "src/cpp/src/SIO: the write functions of all handlers", "src/cpp/src/SIO/LCIORecords.cc", "src/cpp/src/SIO/RunEventMap.cc", "src/cpp/src/SIO/SIORandomAccessHandler.cc", "src/cpp/src/SIO/SIOIndexHandler.cc"]}
{"id": "C77", "title": "Files of all documented versions can be read", "statement": "From a file of any version that has the format that lcio.xml describes for this version, the reader gets the run headers and events with all the data that files of this version contain; everything else has the default values, and pointers are to the objects that were loaded.", "quantifier": "all versions from 0.8 on, all run headers and events with collections of all 21 kinds, flag words and parameters, all choices of collections to read", "why_tests_cant": "Old versions differ in dozens of conditions; there are no writers for them any more, and the files that are left for tests show few combinations.", "anchors": ["cmake/lcio.xml.in", "src/cpp/src/SIO: the read functions of all handlers", "src/cpp/src/SIO/LCIORecords.cc"]}
{"id": "C78", "title": "The bytes of a record depend only on what is stored", "statement": "Writing the same record gives the same bytes whatever was in the buffer before, so that nothing of earlier events gets into the file, and files can be compared byte by byte.", "quantifier": "all records, all contents and sizes of the buffer before", "why_tests_cant": "Buffers are used again for all events, larger and smaller ones; bytes that are skipped show only with the contents before.", "anchors": ["sio/src/api.cc: write_record", "sio/src/io_device.cc: write_device::pad, relocation"]}
{"id": "C79", "title": "The newer StdHep reader gives particles their mothers", "statement": "LCStdHepRdrNew makes of an event of a StdHep file the same particles and weights as LCStdHepRdr, and in addition each entry gets the mothers it names as parents, each once and both ways; updateNextEvent gives events the numbers on the file if asked to.", "quantifier": "all StdHep files and all mother numbers of their entries", "why_tests_cant": "The relations of each particle depend on the numbers that all others name, as mothers and as daughters, in all orders.", "anchors": ["src/cpp/src/UTIL/LCStdHepRdrNew.cc: readEvent, updateNextEvent", "src/cpp/include/UTIL/LCStdHepRdrNew.h"]}
{"id": "C80", "title": "The encoding of tracker cell ids stays the same once it is used", "statement": "LCTrackerCellID::encoding_string can be replaced by one that names subdet or system, side, layer, module and sensor in this order until it is used for the first time; other texts are refused with an exception and change nothing. From the first use on it never changes, and attempts to do so throw. The indices 0 to 4 are those of the five fields.", "quantifier": "all histories of calls, all texts, all values", "why_tests_cant": "Whether a use came before a change depends on the whole history of the program; the check of the text has to hold for all texts.", "anchors": ["src/cpp/include/UTIL/LCTrackerConf.h: LCTrackerCellID"]}
{"id": "C81", "title": "Collection parameters keep a map", "statement": "CollectionParameterMap shows the map that earlier ones have stored in the parameters of the collection with the changes made to it, in whatever order, and leaves all other parameters alone; for a const collection nothing is stored; inconsistent parameters throw an exception.", "quantifier": "all sequences of uses, all maps, names of parameters and other parameters", "why_tests_cant": "The map is the result of all uses before, and is read and stored as a whole each time.", "anchors": ["src/cpp/src/UTIL/CollectionParameterMap.cc", "src/cpp/include/UTIL/CollectionParameterMap.h"]}
{"id": "C82", "title": "Iterators visit every element of a collection once", "statement": "LCIterator returns the elements of a collection one after the other, in their order and each once, and then null pointers; it throws if the type is wrong, and treats a missing collection as empty. LCTypedVector has the elements of the type, and null pointers for others, at the same positions.", "quantifier": "all collections, numbers of calls and types, collections that grow meanwhile", "why_tests_cant": "Sizes, types of single elements, null pointers and changes during the iteration have no bound.", "anchors": ["src/cpp/include/UTIL/LCIterator.h", "src/cpp/include/UTIL/LCTypedVector.h", "src/cpp/src/IMPL/LCCollectionVec.cc: getNumberOfElements, getElementAt"]}
{"id": "C83", "title": "Warnings are printed as often as allowed", "statement": "LCWarning prints a registered warning each time it is called for, with the number of times left, until the maximum is reached, and then not any more; at the end of the program it prints the texts of exactly the warnings that were printed before; registering a warning a second time throws.", "quantifier": "all histories of registering and printing warnings, all texts and maxima", "why_tests_cant": "What a call prints depends on all calls before.", "anchors": ["src/cpp/src/UTIL/LCWarning.cc", "src/cpp/include/UTIL/LCWarning.h"]}
{"id": "C84", "title": "Adding records for direct access keeps what is in files", "statement": "The program addRandomAccess adds the records for direct access to files that do not have them; afterwards each file holds the run headers and events it held before.", "quantifier": "all files on the disk, all lists of names, with and without option -f", "why_tests_cant": "What the program does depends on the last bytes of each file and on every record in it.", "anchors": ["src/cpp/src/EXAMPLE/addRandomAccess.cc: main", "src/cpp/src/SIO/SIOWriter.cc: SIOWriter::open, SIOWriter::close", "src/cpp/src/SIO/LCIORandomAccessMgr.cc: initAppend, recreateEventMap"]}
{"id": "C85", "title": "Readers report how many events and runs there are", "statement": "getNumberOfEvents and getNumberOfRuns return the numbers of events and run headers in what the reader has opened, getEvents and getRuns list their numbers in order, whatever has been read before; reading then goes on where it was. lcio_event_counter prints the total number of events of the files it is given.", "quantifier": "all files written in any sessions, all calls before, with and without direct access, all lists of files", "why_tests_cant": "The map is read from records at the end of files whose positions depend on everything that was written; that the position in the file is kept shows only in the calls that follow.", "anchors": ["src/cpp/src/MT/LCReader.cc: getNumberOfEvents, getNumberOfRuns, getRuns, getEvents", "src/cpp/src/SIO/LCIORandomAccessMgr.cc: createEventMap", "src/cpp/src/EXAMPLE/lcio_event_counter.cc: main"]}
{"id": "C86", "title": "Readers can be used again", "statement": "A reader that has been used for some files and is closed can open others, by a name or by a list of names, and then gives exactly what a new reader gives for them; once closed, and before it opens something, it gives nothing.", "quantifier": "all histories of uses, calls and files", "why_tests_cant": "What remains from earlier uses depends on the whole history, and shows at the end of files or in parameters of run headers.", "anchors": ["src/cpp/src/MT/LCReader.cc: open, close", "src/cpp/src/SIO/SIOReader.cc: open, close"]}
{"id": "C87", "title": "What readers hand out lives until the next call and is then deleted", "statement": "An event that readNextEvent or readEvent of an LCReader has returned stays valid until the next event is read with the same reader, whatever other calls are made; a run header until the next run header is read. Each is deleted exactly once, so that the memory used does not grow with the number of events read, and exceptions thrown for damaged files can be caught.", "quantifier": "all histories of calls, all contents of files", "why_tests_cant": "That nothing is deleted twice or forgotten depends on the whole history, including exceptions from any byte of the files.", "anchors": ["src/cpp/src/SIO/SIOReader.cc: readNextEvent, readNextRunHeader, readEvent, readRunHeader, ~SIOReader", "src/cpp/include/SIO/SIOReader.h"]}
{"id": "C88", "title": "Registered listeners are given everything that is read", "statement": "readStream of an LCReader gives each event to every registered event listener and each run header to every registered run listener, in the order of the files: first to be modified, then to be processed, and with the changes of the listeners before. A listener that is registered twice is called once, and one that is removed is not called any more. Listeners may register and remove listeners while they are called, and are called in the order in which they were registered.", "quantifier": "all histories of registering and removing, all numbers of listeners, all behaviours of listeners, all contents of files", "why_tests_cant": "Listeners are code of the user, with behaviours that depend on all calls before; the order of calls depends on addresses.", "anchors": ["src/cpp/src/SIO/SIOReader.cc: registerLCEventListener, removeLCEventListener, registerLCRunListener, removeLCRunListener, readStream", "src/cpp/include/SIO/SIOReader.h"]}
{"id": "C89", "title": "Splitting a file loses nothing", "statement": "lcio_split_file writes everything in a file, in its order, to files with the numbers 000, 001, ... in their names, begins the next file as soon as the last one is larger than the limit, prints the number of events, and leaves all other files as they are; read one after the other, or together, the new files give what the old one gives.", "quantifier": "all files that LCIO writes, all limits and names, all other files on the disk", "why_tests_cant": "Where files are split depends on the compressed size of everything before.", "anchors": ["src/cpp/src/EXAMPLE/lcio_split_file.cc: main", "src/cpp/src/UTIL/LCSplitWriter.cc", "src/cpp/src/MT/LCReader.cc: readStream"]}
{"id": "C90", "title": "Events are processed in parallel, each once and in its run", "statement": "lcio_parallel_processing gives each event to a task, with never more tasks at a time than allowed; each event and run header is processed exactly once, each run header after all events before it and before all events after it; the program ends when all tasks have returned, and it does end if the tasks return, for all numbers of threads in LCIO_MAX_THREADS.", "quantifier": "all interleavings of the main thread and the tasks, all numbers of tasks, all contents of files", "why_tests_cant": "Schedules of threads cannot be enumerated, and the program has loops that wait for other threads.", "anchors": ["src/cpp/src/EXAMPLE/lcio_parallel_processing.cc: Scheduler, main", "src/cpp/src/MT/LCReader.cc: readNextRecord"]}
{"id": "C91", "title": "A writer can be used for one file after the other", "statement": "An LCWriter can be opened, written to, closed and opened again in any order and for any names. Creating a file that exists, appending to one that does not exist or is empty, and writing when no file is open throw exceptions and change nothing; each file that has been closed is exactly as if a writer of its own had written it. A call at the wrong time, such as opening a file while another is open or closing twice, throws an exception or does nothing, and the writer can still be used.", "quantifier": "all sequences of calls of open, writeRunHeader, writeEvent, flush, setCompressionLevel and close, all names and contents", "why_tests_cant": "What the writer keeps from one file to the next can show up in any later file; sequences of calls are unbounded.", "anchors": ["src/cpp/src/SIO/SIOWriter.cc: open, close, writeEvent, writeRunHeader", "src/cpp/src/MT/LCWriter.cc: open, close, writeEvent, writeRunHeader", "src/cpp/src/SIO/LCIORandomAccessMgr.cc: initAppend, writeRandomAccessRecords"]}
{"id": "C92", "title": "A copy of an object is an object of its own", "statement": "Copying an object gives a new one with the same contents that can be changed without changing the first, has an id() of its own, and can be deleted independently; assigning an object to another replaces its contents. Nothing is deleted twice and no memory is lost, however objects are made, changed, copied, assigned and deleted.", "quantifier": "all histories of making, changing, copying, assigning, locking and deleting objects", "why_tests_cant": "Sharing shows only when the copy or the original is changed or deleted later, in histories of any length.", "anchors": ["src/cpp/src/IMPL/TrackImpl.cc: TrackImpl, operator=, ~TrackImpl", "src/cpp/src/IMPL/ClusterImpl.cc: ~ClusterImpl", "src/cpp/src/IMPL/ReconstructedParticleImpl.cc", "src/cpp/src/IMPL/SimCalorimeterHitImpl.cc", "src/cpp/src/IMPL/TPCHitImpl.cc", "src/cpp/src/IMPL/AccessChecked.cc"]}
{"id": "C93", "title": "Classes with a fixed number of values keep them in memory and in files", "statement": "An object of a class that is derived from LCFixedObject has exactly the values of its class, each is 0 or what it was last set to, and nothing else changes it. After a collection of such objects is stored and loaded, the class can be used for the loaded objects and gives the same values, while a class with other numbers of values throws an exception. The description of the data, such as that of EventSummary, lists all values that are stored, in the order of their numbers.", "quantifier": "all classes (numbers of values, names, descriptions), all sequences of setters, all events, all histories of making, wrapping, copying and deleting", "why_tests_cant": "Classes are defined by users and have any numbers of values; the setters can be called in any order.", "anchors": ["src/cpp/include/UTIL/LCFixedObject.h: LCFixedObject", "src/cpp/include/UTIL/EventSummary.h: EventSummary, ESI, ESF, ESD", "src/cpp/src/IMPL/LCGenericObjectImpl.cc", "src/cpp/src/SIO/SIOLCGenericObjectHandler.cc"]}
{"id": "C94", "title": "The Fortran interface gives Fortran programs the same data", "statement": "Functions that copy a vector to an array of the program store its values as far as there is room, tell how many they stored, and leave everything else as it was; a vector made of the array has the same values, for numbers, pointers and strings. Elements are counted from one, and a number out of range is reported. A run header, and a parameter, that a program writes is the one it reads.", "quantifier": "all vectors, all strings, all sizes of the arrays of the program, all numbers of elements, all run headers and parameters", "why_tests_cant": "Arrays can have any size and vectors any number of elements; writing behind an array need not be seen in a test.", "anchors": ["src/cpp/src/CPPFORT/lciof77apiext.cc: lcgetintvector, lcgetstringvector, lcstringvectorcreate, lcwriterunheader, lcreadnextrunheader, lcsetparameters, lcgetparameters, lcgetsimcalohit", "src/cpp/src/CPPFORT/lcmcp.cc: lcmcpgetparent, lcmcpgetdaughter", "src/cpp/src/CPPFORT/lcvtx.cc: lcvtxgetparameters", "src/cpp/src/CPPFORT/lcpid.cc: lcpidgetparameters", "src/cpp/src/CPPFORT/lcclu.cc: lcclugethitcontributions", "src/cpp/src/CPPFORT/lccol.cc: lccolgetelementat, lccolremoveelementat", "src/cpp/src/CPPFORT/lcobv.cc", "src/cpp/src/CPPFORT/lcsth.cc"]}
{"id": "C95", "title": "The program that checks collections succeeds just if the events are as asked for", "statement": "lcio_check_col_elements succeeds just if some event that it looks at has the collection, and no more events than allowed have a number of elements outside the range that is asked for (with --average: the mean number of elements is in the range); events without the collection count as failed, and as 0 for the average, just if --pedantic is given. It looks at the events from the start event on, as many as asked for, in all files. Options that cannot be used together make it fail.", "quantifier": "all options, all files that LCIO writes and all numbers of files, all names of collections", "why_tests_cant": "The options can be combined in many ways, and the result depends on all events of all files.", "anchors": ["src/cpp/src/EXAMPLE/lcio_check_col_elements.cc: main, print_usage", "src/cpp/src/SIO/SIOReader.cc: readNextEvent, skipNEvents"]}
{"id": "C96", "title": "Files read in parallel are printed as a whole and in order", "statement": "lcio_parallel_read reads each file in a thread of its own and prints whole events, one after the other: parts of different events are never mixed, and the events of each file are printed once each, in their order; at the end it prints the right number. If reading a file throws an exception the program ends with that exception. It cannot deadlock, and ends in all orders in which the threads run if each file can be read to its end.", "quantifier": "all interleavings of the threads, all numbers of files, all contents of files, readable or not", "why_tests_cant": "Schedules of threads cannot be enumerated, and the order of the output depends on them.", "anchors": ["src/cpp/src/EXAMPLE/lcio_parallel_read.cc: main", "src/cpp/src/UTIL/LCTOOLS.cc: dumpEvent", "src/cpp/src/MT/LCReader.cc: readStream"]}
{"id": "C97", "title": "What is printed tells what is in the event", "statement": "What dumpEvent, printParameters, printMCParticles, printDaughterParticles, getSimulatorStatusString and getQualityString show determines what they show it for: two events with the same text have the same numbers, detector and collections; parameters with the same text have the same names and values; each status has a text of its own; each particle has its line, whose indices are the positions of its parents and daughters in the collection; and in the list of descendants each line has, below its number, exactly the daughters of its particle. Printing ends.", "quantifier": "all events, parameters, status words, collections of particles and decay chains", "why_tests_cant": "Texts could be the same for any two of infinitely many events; decay chains have any size and shape.", "anchors": ["src/cpp/src/UTIL/LCTOOLS.cc: dumpEvent, printParameters, printMCParticles, printDaughterParticles, getSimulatorStatusString, getQualityString", "src/cpp/src/IMPL/MCParticleImpl.cc: getEndpoint, getEnergy"]}
{"id": "C98", "title": "StdHep files are converted to LCIO files", "statement": "stdhepjob and stdhepjob_new convert all events of a StdHep file, or the first maxEvt if this is not negative, and print how many these are. A reader of the new file gets a run header for run 0 that names the input file, and then the events, in order and numbered from 0, each with one collection MCParticle that has one particle for each entry, in order, with its PDG code, status, vertex, momentum, mass, charge, time, spin and color flow, and the weight and process number as parameters; parents and daughters are the particles that correspond to those in the StdHep event. An output file that exists is not touched.", "quantifier": "all StdHep files whose events can be converted, all numbers of events, all limits", "why_tests_cant": "Files have any number of events with any relations between particles, and the claim is about what comes out of the new file in another program.", "anchors": ["src/cpp/src/EXAMPLE/stdhepjob.cc: main", "src/cpp/src/EXAMPLE/stdhepjob_new.cc: main", "src/cpp/src/UTIL/LCStdHepRdr.cc: updateNextEvent", "src/cpp/src/UTIL/LCStdHepRdrNew.cc: updateNextEvent", "src/cpp/src/SIO/SIOWriter.cc: open, writeEvent"]}
{"id": "C99", "title": "Pointers in events that have been read lead to objects of the event", "statement": "In every event that a reader gives (readNextEvent, readEvent, or to a listener), whatever is in the file, every pointer is null or points to an object that belongs to the event and was made when it was read: hits, tracks, clusters, particles, parents and daughters, particle ids, vertices, both ends of relations, and the elements of subset collections. No two objects are at the same address, elements of a collection are there unless it is a subset, and they are of the class that is the type of the collection, so that a typed vector of this class has all of them.", "quantifier": "all files, damaged or made by other programs, in which no event record has a collection twice; all sequences of calls before", "why_tests_cant": "The bytes of a file are arbitrary, and a dangling pointer need not be seen when it is used.", "anchors": ["src/cpp/src/MT/LCReader.cc: readNextEvent, readEvent, readStream, postProcessEvent", "src/cpp/src/SIO/SIOCollectionHandler.cc: read", "src/cpp/src/SIO/SIOParticleHandler.cc: read, restoreParentDaughterRelations", "sio/src/io_device.cc: pointer_relocation, pointer_to, pointed_at", "src/cpp/include/UTIL/LCTypedVector.h"]}
{"id": "C100", "title": "The type name of an object is the one of its collection", "statement": "lctypename of an LCObject gives the name of its class as it is used for the type of collections, and the object can be used as an object of this class; for elements of a collection of an event that was read it is the type of the collection.", "quantifier": "all objects of all classes", "why_tests_cant": "Objects of all classes, with any contents, in all collections of all files.", "anchors": ["src/cpp/include/UTIL/LCIOTypeInfo.h: lctypename", "src/cpp/src/IMPL/LCIO.cc"]}
{"id": "C101", "title": "dumpevent shows the event that is asked for", "statement": "dumpevent with a file and a number n shows the n-th event of the file; with a file, a run and an event number it shows the event with these numbers. If there is no such event it says so and ends with status 1, as it does if the file cannot be read; wrong numbers lead to the usage. If LCIO_READ_COL_NAMES is set, just the collections that are listed there are read.", "quantifier": "all files that LCIO writes, all numbers, all lists of names", "why_tests_cant": "Files have any number of events with any numbers, in any number of sessions.", "anchors": ["src/cpp/src/EXAMPLE/dumpevent.cc: main", "src/cpp/src/MT/LCReader.cc: open, skipNEvents, readNextEvent, readEvent", "src/cpp/src/SIO/SIOReader.cc"]}
{"id": "C102", "title": "Printing an event in detail does not crash", "statement": "LCTOOLS::dumpEventDetailed, which dumpevent uses, prints every event that a reader gives: objects, what they point at, cell ids with their fields and particle ids with their parameters, without undefined behaviour and without an exception.", "quantifier": "all events, with any collections, pointers and parameters", "why_tests_cant": "It follows pointers of all classes and reads parameters of collections; tests print events that are complete.", "anchors": ["src/cpp/src/UTIL/LCTOOLS.cc:LCTOOLS::dumpEventDetailed", "src/cpp/src/UTIL/LCTOOLS.cc:LCTOOLS::printClusters", "src/cpp/src/UTIL/Operators.cc:operator<<"]}
{"id": "C103", "title": "Collections of user objects are printed with their own description", "statement": "Above the objects of a collection of user objects LCTOOLS::printLCGenericObjects prints the description of the data of that collection and whether the objects have a fixed size.", "quantifier": "all sequences of collections that a program prints", "why_tests_cant": "The text is kept between calls, so it depends on what the program has printed before.", "anchors": ["src/cpp/src/UTIL/Operators.cc:header", "src/cpp/src/UTIL/LCTOOLS.cc:LCTOOLS::printLCGenericObjects"]}
{"id": "C104", "title": "Views of a buffer show the bytes that were asked for", "statement": "buffer::span and buffer_span::subspan return a view of exactly the bytes that were asked for, also of views of views, or throw out_of_range if they are not all there; at throws out_of_range for every index that is not in the view, so no access that is checked reads a byte outside the buffer. dump prints the bytes of the view, at most max_bytes.", "quantifier": "all buffers, all chains of views, all starts, lengths and indices, all limits", "why_tests_cant": "Starts and lengths are arbitrary numbers of 64 bits, and views can be nested to any depth.", "anchors": ["sio/src/buffer.cc: buffer_span::subspan, buffer_span::at, buffer_span::operator[], buffer_span::dump, buffer::span", "sio/include/sio/buffer.h: buffer_span"]}
{"id": "C105", "title": "anajob shows everything that is in the files", "statement": "anajob prints for each of the files how many run headers and events are in it, then all run headers of all files, in order, then all events, in order, and how many events it has read. If LCIO_READ_COL_NAMES is set, just the collections that are listed there are read.", "quantifier": "all lists of files that LCIO writes, all contents, all lists of names", "why_tests_cant": "Any number of files with any number of sessions and events; one reader is used for all files, so what is printed for a file could depend on those before.", "anchors": ["src/cpp/src/EXAMPLE/anajob.cc: main", "src/cpp/src/MT/LCReader.cc: open, close, getNumberOfEvents, getNumberOfRuns, readNextRunHeader, readNextEvent", "src/cpp/src/SIO/LCIORandomAccessMgr.cc: createEventMap, clear"]}
{"id": "C106", "title": "The closest track state is found", "statement": "getClosestTrackState returns the state of the track whose reference point is closest to the given point.", "quantifier": "all tracks with any number of states, all reference points and points, any floating point arithmetic", "why_tests_cant": "Tracks can have any number of states, and coordinates are arbitrary floating point values, including those that are not numbers.", "anchors": ["src/cpp/src/IMPL/TrackImpl.cc: TrackImpl::getClosestTrackState", "src/cpp/include/EVENT/Track.h"]}
{"id": "C107", "title": "Splitting a file and merging the parts gives the file again", "statement": "If a file is split with lcio_split_file and the parts are merged with lcio_merge_files, the new file has the same run headers and events in the same order, whatever the size of the parts; merging files in stages gives the same as merging them at once.", "quantifier": "all files that LCIO writes, all sizes of the parts, all groups of files", "why_tests_cant": "Files have any number of records, so there can be any number of parts, and what is copied was itself read from a copy.", "anchors": ["src/cpp/src/EXAMPLE/lcio_split_file.cc: main", "src/cpp/src/EXAMPLE/lcio_merge_files.cc: main", "src/cpp/src/UTIL/LCSplitWriter.cc"]}
{"id": "C108", "title": "Cell ids of ILD always have the canonical fields", "statement": "Whatever further fields are given to an ILDCellIDEncoder, the five canonical fields have their indices and bits, so that a decoder that knows only the canonical encoding reads them correctly, even from the first word of the cell id alone; if the constructor throws, the collection is unchanged.", "quantifier": "all texts with further fields, all types of hits, all values of the fields, all collections", "why_tests_cant": "The further fields are an arbitrary text, and values and widths of fields have too many combinations to try.", "anchors": ["src/cpp/include/UTIL/ILDConf.h: ILDCellIDEncoder, ILDCellID0", "src/cpp/src/UTIL/ILDConf.cc", "src/cpp/include/UTIL/CellIDEncoder.h"]}
{"id": "C109", "title": "What a Fortran program stores in events is what it gets", "statement": "The header of an event, the simulated tracker hits, the simulated calorimeter hits with their contributions and the simulated particles that a Fortran program makes are the ones it gets: hits and contributions in the order they were added, counted from one, each value as it was set last, and nothing of its arrays is changed but the elements that hold the values.", "quantifier": "all headers; all sequences of hits and all interleavings of making hits and adding contributions; all sequences of calls that set something of a particle; all sizes of arrays with enough room", "why_tests_cant": "Tests make a few hits with a few values; whether a value survives depends on all calls before it, on sizes of numbers, and on which functions change something else.", "anchors": ["src/cpp/src/CPPFORT/lciof77apiext.cc: lcseteventheader, lcgeteventheader, lcaddsimtrackerhit, lcgetsimtrackerhit, lcaddsimcalohit, lcgetsimcalohit, lcgetsimcalohitmccont, lcgetmcparticledata", "src/cpp/src/CPPFORT/lcsch.cc: lcschaddmcparticlecontribution", "src/cpp/src/CPPFORT/lcmcp.cc"]}
{"id": "C110", "title": "Adding collections to an event that was read changes nothing of what was there", "statement": "A program reads an event, adds collections to it and writes it to another file. When that is read, everything that was in the first event is there and the same, with the same pointers between the objects, and what was added is there, with its relations to the objects that were read.", "quantifier": "all events, all collections that can be added to them, wherever their names put them, all buffers and options", "why_tests_cant": "The names decide where collections are put and in which order pointers are restored; tests add collections with a few fixed names to a few events.", "anchors": ["src/cpp/src/EXAMPLE/recjob.cc", "src/cpp/src/SIO/SIOEventHandler.cc", "src/cpp/src/SIO/SIOCollectionHandler.cc", "src/cpp/src/SIO/SIOParticleHandler.cc: restoreParentDaughterRelations", "src/cpp/src/IMPL/LCEventImpl.cc: addCollection"]}
{"id": "C111", "title": "The LCIO shell shows what is in files", "statement": "In the interactive shell lsh, files, runs, events and collections are entered with cd and listed with ls. For every file written with LCIO and every sequence of commands, the list of a file has its runs with descriptions and numbers of events, the list of a run has its events, the list of an event has its collections with types and sizes, and cat and dump show the collection, event or run at the place where the user is. Paths with several parts lead to where their parts lead one after the other, and .. leads back. Other files can be opened at any time.", "quantifier": "all files, all sequences of commands, all paths, all numbers of runs, events and collections", "why_tests_cant": "what is shown depends on all commands that were given before, because the reader, the maps of runs and the counters are kept; tests cover few histories", "anchors": ["src/cpp/src/EXAMPLE/lsh.cc: fun_open, fun_ls, fun_cd, fun_print, fun_dump, main"]}
{"id": "C112", "title": "Nothing is lost silently when the disk becomes full", "statement": "If there is no room on the disk for what a program writes, the call of writeRunHeader or writeEvent for which there is none throws, and so do all calls for writing that come after it; if there is only no room for the index, close throws. If no call throws, the file is complete. What was written by calls that returned normally can be read from the file, as can what was in the file before it was opened to append.", "quantifier": "all earlier sessions and histories of writing, compressed or not, with any number of run headers and events, and every number of bytes the file can have on the disk", "why_tests_cant": "The disk can become full at every byte of every record, in the header, the data or the padding, and also while the index is written; a test has one size of disk.", "anchors": ["sio/src/api.cc: sio::api::write_record", "src/cpp/src/SIO/SIOWriter.cc: SIOWriter::writeRunHeader, SIOWriter::writeEvent, SIOWriter::close", "src/cpp/src/SIO/LCIORandomAccessMgr.cc: LCIORandomAccessMgr::writeRandomAccessRecords"]}
{"id": "C113", "title": "What is printed of an object does not depend on what was printed before", "statement": "Objects, collections and events are printed with the operators << for lcshort and lcio_long, to any stream and any number of times, or as text with toString. The text of an object is always the same, whatever was printed to the stream before, and printing does not change how the stream prints the numbers of the program.", "quantifier": "all objects, all histories of printing to a stream, all formats the stream can have", "why_tests_cant": "The operators set and do not reset the fill character, the base, the precision and the alignment of the stream; a test prints few objects in one order.", "anchors": ["src/cpp/src/UTIL/Operators.cc: operator<<, toString", "src/cpp/include/UTIL/Operators.h"]}
{"id": "C114", "title": "The listing of a file shows its records and blocks", "statement": "dump_records prints one line for each record of a file, in the order of the file, starting behind the number of records to skip and up to the number to show, with the name, the position, the options and the lengths of the record. In detailed mode, each record is followed by one line for each of its blocks, with name, version, position and length, also if the record is compressed. At the end of the file it returns normally.", "quantifier": "all files of records, compressed or not, with any number of records and blocks, all numbers of records to skip and to show", "why_tests_cant": "Buffers and the stream are used again for each record, so what is shown of one can depend on those before; a test has few files.", "anchors": ["sio/src/api.cc: sio::api::dump_records, sio::api::skip_n_records, sio::api::read_block_infos", "sio/include/sio/api.h"]}
{"id": "C115", "title": "Threads that write to a full disk are told", "statement": "Several threads write run headers and events with one MT writer, and the disk becomes full. Whatever the schedule, the call for which there is no room throws and so do all calls that get to the file after it, in all threads; none of them waits forever. If only the index has no room, close throws; if nothing throws, the file is complete. What was written by calls that returned normally can be read from the file, in an order in which the calls of each thread are in the order it made them, and only that is in the index.", "quantifier": "all numbers of threads, all programs of calls, all schedules, compressed or not, and every number of bytes the file can have on the disk", "why_tests_cant": "The disk can become full at any byte while any other thread is at any point of its call; a test has one size of disk and few schedules.", "anchors": ["src/cpp/src/MT/LCWriter.cc: MT::LCWriter::writeRunHeader, MT::LCWriter::writeEvent, MT::LCWriter::close", "sio/src/api.cc: sio::api::write_record", "src/cpp/src/SIO/LCIORandomAccessMgr.cc: LCIORandomAccessMgr::writeRandomAccessRecords"]}
{"id": "C116", "title": "Fortran programs are told whether writing and reading succeeded", "statement": "A Fortran program that opens a file, writes run headers and events, and closes it, is not ended by the library: each function returns LCIO_SUCCESS if it did what was asked and LCIO_ERROR if not (also on a full disk), and what was written with LCIO_SUCCESS is in the file. A program that reads a file gets everything that was written, in order, and then 0.", "quantifier": "all sequences of sessions, all run headers and events, all sizes of the disk, all orders of calls for reading", "why_tests_cant": "The disk becomes full at any byte of any record; which exceptions leave the functions depends on where it happens.", "anchors": ["src/cpp/src/CPPFORT/lcwrt.cc: lcwrtopen, lcwrtclose, lcwrtwriterunheader, lcwrtwriteevent", "src/cpp/src/CPPFORT/lcrdr.cc: lcrdrreadnextevent, lcrdrreadnextrunheader", "src/cpp/src/CPPFORT/lciof77apiext.cc: lcwriterunheader, lcreadnextrunheader", "src/cpp/src/SIO/SIOWriter.cc: SIOWriter"]}
{"id": "C117", "title": "Lists that a relation navigator hands out stay correct", "statement": "The lists of related objects and of weights that a navigator (LCRelationNavigator, and lcrnv in Fortran) gives to a program always show the relations of the moment, however relations are added and removed while the program keeps them. Removing the relations found in such a list, one after the other, removes all of them.", "quantifier": "all sequences of calls before and after the list was given, all four kinds of lists, all objects and weights", "why_tests_cant": "Whether a list that is kept can still be used depends on the whole history of calls in between; tests ask again each time.", "anchors": ["src/cpp/src/UTIL/LCRelationNavigator.cc: LCRelationNavigator::getRelatedToObjects, LCRelationNavigator::getRelatedFromObjects, LCRelationNavigator::addRelation, LCRelationNavigator::removeRelation", "src/cpp/src/CPPFORT/lcrnv.cc: lcrnvgetrelatedtoobjects, lcrnvgetrelatedtoweights"]}
{"id": "C118", "title": "Going through the names of an event visits every collection once", "statement": "A program that goes through the list of names it got from an event comes to the name of every collection that was in the event once, whatever it does with the event for each name (getting, taking, adding and removing collections, writing or printing the event). If it removes the collections it selects, just these are gone afterwards.", "quantifier": "all sequences of calls that made the event, everything a program can do for each name, all selections of names", "why_tests_cant": "The list is part of the event and is made again whenever someone asks for the names; what the loop sees depends on what is called in between.", "anchors": ["src/cpp/src/IMPL/LCEventImpl.cc: LCEventImpl::getCollectionNames, LCEventImpl::removeCollection, LCEventImpl::addCollection", "src/cpp/src/SIO/LCIORecords.cc: SIOEventRecord::setupBlocks", "src/cpp/src/UTIL/LCTOOLS.cc: LCTOOLS::dumpEvent"]}
{"id": "C119", "title": "Objects in the collections of an event are deleted once", "statement": "When an event is deleted, every object that was put into its collections is deleted exactly once. Objects may be put into any number of subset collections in addition; these delete nothing.", "quantifier": "all sequences of calls for the event and its collections (adding and removing elements and collections, taking collections, setting flags), all objects", "why_tests_cant": "Which collection deletes an object is decided by flags at the time of deletion, after any history; an object deleted twice or never does not show in a test that ends soon after.", "anchors": ["src/cpp/src/IMPL/LCCollectionVec.cc: LCCollectionVec::~LCCollectionVec, LCCollectionVec::setSubset, LCCollectionVec::setFlag, LCCollectionVec::removeElementAt", "src/cpp/src/IMPL/LCEventImpl.cc: LCEventImpl::~LCEventImpl, LCEventImpl::takeCollection"]}
{"id": "C120", "title": "What is attached to an object at run time stays with it and is deleted once", "statement": "ext<V>() of an object gives what the program has attached to this object under the name V, or zero, a null pointer or an empty container; other objects and other names, also copies of the object, have no influence. What is given to extensions that take ownership is deleted exactly once, together with the object.", "quantifier": "all programs that make, copy, assign and delete objects and attach values, pointers and containers to them under any names, in any order", "why_tests_cant": "The places for extensions are made on first use and shared between copies of objects; which object deletes what depends on the whole history.", "anchors": ["src/cpp/include/LCRTRelations.h: LCRTRelations::ext, LCRTRelations::ptr, LCIntExtension, LCFloatExtension, LCBoolExtension, LCExtension, LCOwnedExtension, LCExtensionVector, LCOwnedExtensionVector", "src/cpp/src/IMPL/TrackImpl.cc: TrackImpl::operator="]}
{"id": "C121", "title": "Merging files on a full disk does not fail silently", "statement": "If the disk becomes full while lcio_merge_files (or copyfix) writes the new file, whoever started the program can see from how it ends that the new file is not complete. All run headers and events that were written before can be read from the new file. If there is enough room the program ends normally, with the complete file.", "quantifier": "all files that can be merged, made in any number of sessions, all sizes of the disk", "why_tests_cant": "The disk becomes full at any byte of any record or of the index that is written when the program ends; whether the exception is seen depends on where this is.", "anchors": ["src/cpp/src/EXAMPLE/lcio_merge_files.cc: main, RunEventProcessor::~RunEventProcessor", "src/cpp/src/EXAMPLE/copyfix.cc: main, RunEventProcessor::~RunEventProcessor", "src/cpp/src/SIO/SIOWriter.cc: SIOWriter::close"]}
{"id": "C122", "title": "Merging files keeps the files that are merged", "statement": "lcio_merge_files (and copyfix) changes no file except the new one, which has the name that was given, with the extension .slcio. Nothing that is in the files to be merged is lost, whatever names are given. If a file does not exist, nothing is changed and the program ends with an error.", "quantifier": "all files that can be merged, all contents of the disk, all names of the files and of the new file", "why_tests_cant": "The new file is made before anything is read; whether this does harm depends on the names and not on what is in the files.", "anchors": ["src/cpp/src/EXAMPLE/lcio_merge_files.cc: main, RunEventProcessor", "src/cpp/src/EXAMPLE/copyfix.cc: main", "src/cpp/src/MT/LCReader.cc: LCReader::open", "src/cpp/src/SIO/SIOWriter.cc: SIOWriter::open, SIOWriter::getSIOFileName"]}
{"id": "C123", "title": "Removing selected elements of a collection in a loop", "statement": "A program that goes through a collection with getNumberOfElements and getElementAt, and calls removeElementAt for the elements it selects, removes just these elements; the others stay, in their order. If the collection is read-only, it is not changed and there is an exception.", "quantifier": "all collections, all selections of elements, the usual ways to write the loop", "why_tests_cant": "Whether an element is skipped depends on which elements are next to each other; tests select single elements.", "anchors": ["src/cpp/src/IMPL/LCCollectionVec.cc: LCCollectionVec::removeElementAt, LCCollectionVec::getElementAt, LCCollectionVec::getNumberOfElements"]}
