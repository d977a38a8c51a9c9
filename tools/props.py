#!/usr/bin/env python3
"""Single source of /verif/properties.jsonl. Run from anywhere: rewrites the file."""
import json, os
P = []
def p(title, statement, quantifier, why, *anchors):
    P.append(dict(id="C%02d" % (len(P)+1), title=title, statement=statement,
                  quantifier=quantifier, why_tests_cant=why, anchors=list(anchors)))

# ---------------------------------------------------------------- SIO devices
p("Fixed-size array round trip",
  "An array of 1-, 2-, 4- or 8-byte elements written with write_device::data and read back with read_device::data from the position it was written at returns exactly the same elements, whatever was in the buffer before and whatever is written after it, for arrays below 4 GiB.",
  "all element sizes, all arrays shorter than 2^32-3 bytes, all prior buffer contents and cursor positions, all later writes",
  "The value space (2^64 doubles) times array lengths times cursor positions is infinite; a test fixes a handful.",
  "sio/include/sio/api.h: api::read, api::write", "sio/src/memcpy.cc: memcpy::reverse_copy", "sio/include/sio/io_device.h: write_device::data, read_device::data")
p("Wire format is big-endian, zero padded to four bytes",
  "The bytes that write_device::data appends for an array are the big-endian bytes of each element in order, followed by zero bytes up to the next multiple of four, and the cursor advances by exactly that length; a device that starts at a multiple of four stays at multiples of four through any sequence of writes.",
  "all element sizes and arrays below 4 GiB, all write sequences",
  "Interoperability with other readers (Java, Fortran) depends on every byte of every encoding.",
  "sio/include/sio/api.h: api::write", "sio/src/memcpy.cc: memcpy::reverse_copy")
p("Write device never writes outside its buffer and never loses bytes",
  "Any sequence of write_device data/pointer_to/pointed_at calls (each array below 4 GiB) and successful seeks grows the buffer when needed, never writes outside it, never shrinks it, and leaves every byte outside the written range unchanged.",
  "all buffers, all cursor positions up to the size, all write sequences",
  "Memory safety over all call histories; the growth policy depends on the interplay of size, cursor and length.",
  "sio/include/sio/api.h: api::write", "sio/src/buffer.cc: buffer::expand", "sio/src/io_device.cc: write_device::seek")
p("Read device never reads outside its buffer",
  "On any byte buffer, including corrupt ones, every read_device::data call either returns data that lies entirely inside the buffer or throws; it never reads past the end.",
  "all byte buffers, cursor positions, element sizes and counts a file can ask for",
  "Adversarial or corrupt inputs are unbounded.",
  "sio/include/sio/api.h: api::read", "sio/include/sio/io_device.h: read_device::data(vector)")
p("String round trip",
  "A std::string of fewer than 2^31 bytes, including empty strings and strings with embedded NUL bytes, written to a write_device is read back identically from the same position.",
  "all byte strings shorter than 2^31, all positions and surroundings",
  "Infinite domain.",
  "sio/include/sio/io_device.h: write_device::data<std::string>, read_device::data<std::string>")
p("Vector round trip independent of the target's old contents",
  "A std::vector of numbers or of strings written to a write_device is read back as exactly that vector, whatever the target vector contained before the read.",
  "all vectors with fewer than 2^31 elements and 4 GiB, all previous contents of the target",
  "Depends on the prior state of the target object for every input.",
  "sio/include/sio/io_device.h: read_device::data(vector<T>&), read_device::data(vector<string>&), write_device::data(vector)")
p("Name validation accepts exactly identifiers",
  "sio::validate / valid_record_name accept a name exactly when it is a C identifier ([A-Za-z_][A-Za-z0-9_]*), and for records when it is also at most 64 bytes long.",
  "all byte strings",
  "Infinite domain of strings.",
  "sio/include/sio/definitions.h: validate, valid_record_name")
p("Version words",
  "Encoding (major, minor) as one 32-bit word and decoding it gives back the pair for all 16-bit values, and comparing encoded words orders versions lexicographically, so the version gates in the decoders mean what they say.",
  "all pairs of 16-bit numbers",
  "2^32 pairs and 2^64 comparisons.",
  "sio/src/version.cc: version::encode_version, major_version, minor_version")
# ---------------------------------------------------------------- pointers
p("Pointer relocation restores the object graph",
  "When a record is written and read back, every stored reference to an object whose tag is in the same record (in any block that is decoded) refers to the re-read copy of that object; null references and references to objects not in the record read back as null.",
  "all sequences of pointer and tag writes over all blocks of a record, all memory addresses of the objects, all subsets of decoded blocks",
  "All object graphs (including sharing and cycles) and all allocation addresses; the match numbers depend on address order.",
  "sio/src/api.cc: write_relocation, read_relocation", "sio/src/io_device.cc: pointer_to, pointed_at")
p("Relocation on read writes every registered slot and nothing else",
  "Pointer relocation after reading sets each registered pointer slot to the address registered for its match word (the first one registered), or to null when there is none, and changes no other memory.",
  "all pointer-to and pointed-at tables, all memories",
  "All tables.",
  "sio/src/api.cc: read_relocation", "sio/src/io_device.cc: read_device::pointer_relocation")
# ---------------------------------------------------------------- blocks, records
p("Block round trip with selective decoding",
  "The blocks of a record are handed, in order and once each, to the decoder registered under their name together with the version they were written with and a device positioned at their payload; blocks without a decoder are skipped without influencing the decoding of any other block.",
  "all lists of blocks (names, versions, payloads), all sets of decoders",
  "All combinations of blocks and decoders.",
  "sio/src/api.cc: write_blocks, extract_block, read_blocks")
p("Block directory",
  "read_block_infos on the data of a written record lists exactly the written blocks in order with their names, versions and payload lengths, and their [start,end) ranges tile the record data.",
  "all lists of blocks",
  "All lists of blocks.",
  "sio/src/api.cc: read_block_infos, extract_block, write_blocks")
p("Decoding any record data terminates",
  "read_blocks and read_block_infos terminate on every byte buffer, well-formed or not.",
  "all byte buffers",
  "Non-termination on a corrupt length word cannot be excluded by sampling.",
  "sio/src/api.cc: read_blocks, read_block_infos, extract_block")
p("Record header describes the record",
  "write_record(name, buffer, blocks) yields a buffer whose header carries the header length, the options with the compression bit cleared, the data length (twice) and the name; reading the header back from a stream returns exactly this information and the file range the record occupies.",
  "all valid names, options, block lists and stream positions",
  "All names, payloads and positions.",
  "sio/src/api.cc: write_record, read_record_info")
p("Sequential reading returns exactly the records written",
  "For every sequence of records written one after the other to a file, repeatedly reading records returns exactly these records (name, options, data bytes) in order and then reports end of file.",
  "all finite sequences of records, compressed or not, with every data length modulo four",
  "Padding and length arithmetic must agree for every history of writes.",
  "sio/src/api.cc: write_record(stream,...), read_record_info, read_record_data, read_record")
p("Compression is transparent",
  "For every lossless codec, a record that is compressed, written, read and uncompressed yields the same data bytes as the uncompressed record, at every compressed length modulo four.",
  "all records, all lossless codecs",
  "All payloads and compressed sizes.",
  "sio/include/sio/api.h: compress_record", "sio/src/api.cc: write_record(stream,hdr,data)", "sio/src/compression/zlib.cc")
p("Record filtering is exact",
  "api::read_records with a validity predicate delivers to the callback exactly the records that satisfy the predicate, in file order, up to and including the first one for which the callback returns false.",
  "all record sequences, predicates and callbacks",
  "All predicates and sequences.",
  "sio/include/sio/api.h: read_records")
p("Skipping records",
  "skip_n_records(n) leaves the stream at the start of the n-th record after the current one, and go_to_record(name) at the start of the next record with that name.",
  "all record sequences, all n, all names",
  "All n and sequences.",
  "sio/src/api.cc: skip_n_records, skip_records, go_to_record")
p("Truncated files yield a prefix and never corrupt data",
  "If a file is cut at any byte (crash, full disk), sequential reading of the remains returns exactly the records that are completely contained in it, and then fails or reports end of file; it never returns a record that was not written.",
  "all record sequences and every cut position",
  "Every crash point of every history.",
  "sio/src/api.cc: read_record_info, read_record_data")
p("Reading a record header is memory safe",
  "read_record_info never writes outside its header buffer, whatever the bytes of the file are.",
  "all files and stream positions",
  "Adversarial inputs.",
  "sio/src/api.cc: read_record_info")
# ---------------------------------------------------------------- random access
p("Run/event keys are encoded without collisions",
  "Converting a RunEvent to its 64-bit form and back is the identity for all 32-bit run and event numbers (including negative ones), so two different (run,event) pairs never share a key.",
  "all pairs of 32-bit integers",
  "2^64 pairs.",
  "src/cpp/include/SIO/RunEventMap.h: RunEvent", "src/cpp/src/SIO/RunEventMap.cc")
p("RunEvent ordering",
  "The ordering of RunEvent keys is a strict weak ordering in which all run headers come first, ordered by run number, followed by the events ordered by run and then by event number.",
  "all triples of keys",
  "Axioms over all triples.",
  "src/cpp/src/SIO/RunEventMap.cc: operator<")
p("RunEventMap behaves as a map and counts correctly",
  "After any sequence of additions, looking up a (run,event) pair gives the position of the last addition of this pair and 'not found' otherwise, and the reported numbers of runs and events equal the numbers of distinct run and event keys added.",
  "all sequences of additions and clears with event numbers >= -1",
  "All histories.",
  "src/cpp/src/SIO/RunEventMap.cc: add, getPosition, getNumberOfRunRecords, getNumberOfEventRecords")
p("Listing of runs and events",
  "getRuns and getEvents list exactly the distinct runs and the distinct (run,event) pairs of the file in increasing order, once each.",
  "all files",
  "All contents.",
  "src/cpp/src/MT/LCReader.cc: getRuns, getEvents", "src/cpp/src/SIO/RunEventMap.cc")
p("Random access index round trip",
  "The index block written for a set of (run,event,position) entries reads back as exactly this set of entries.",
  "all sets of entries",
  "The compact encodings (single run, 32-bit offsets) switch on properties of the whole set.",
  "src/cpp/src/SIO/SIOIndexHandler.cc: read, write")
p("Random access record round trip and fixed size",
  "A random access record reads back with the same field values it was written with, and it always occupies exactly the fixed number of bytes that the reader seeks back from the end of the file.",
  "all field values",
  "All field values; the fixed size is assumed by the seek from end of file.",
  "src/cpp/src/SIO/SIORandomAccessHandler.cc: read, write", "src/cpp/src/SIO/LCIORandomAccessMgr.cc: writeRandomAccessRecords")
p("File summary counts",
  "The file-level random access record written on close reports the number of runs and events in the file and their smallest and largest (run,event), and where the first and the last random access record are, after any number of write/append sessions.",
  "all sequences of sessions",
  "All histories of append sessions.",
  "src/cpp/src/SIO/LCIORandomAccessMgr.cc: createFileRecord, initAppend, writeRandomAccessRecords")
p("Direct access finds every event",
  "After any number of write and append sessions, the event map built from the chain of random access records contains exactly the runs and events written, each with the file position of its record.",
  "all sequences of sessions",
  "All histories.",
  "src/cpp/src/SIO/LCIORandomAccessMgr.cc: createEventMap, writeRandomAccessRecords, createFromEventMap")
p("Appending preserves existing data",
  "Opening an existing file for append and writing more records leaves all earlier run headers and events readable and in their place.",
  "all existing files (with or without random access records) and all appended data",
  "All prior contents.",
  "src/cpp/src/MT/LCWriter.cc: open", "src/cpp/src/SIO/SIOWriter.cc: open")
p("Direct and sequential access agree",
  "readEvent(run,evt) by direct access returns the same event that a sequential search for this (run,event) returns when the pair is unique in the file, and reports 'not found' exactly when the sequential search does.",
  "all files with random access records, all (run,event) pairs",
  "All files and queries.",
  "src/cpp/src/MT/LCReader.cc: readEvent, readNextEvent")
# ---------------------------------------------------------------- reader / writer
p("Events come back in the order written",
  "For every sequence of writeRunHeader/writeEvent calls, readNextRunHeader/readNextEvent return the run headers/events in the order written and null after the last one.",
  "all sequences of writes and reads",
  "All histories.",
  "src/cpp/src/MT/LCReader.cc: readNextEvent, readNextRunHeader", "src/cpp/src/MT/LCWriter.cc: writeEvent, writeRunHeader")
p("Multi-file reading is concatenation",
  "Opening a list of files and reading events sequentially returns the events of all files in file order, as if they were one file.",
  "all lists of files, including empty ones",
  "All lists of files.",
  "src/cpp/src/MT/LCReader.cc: readNextEvent, readStream, open")
p("readStream delivers the requested number of records",
  "readStream(listeners, n) passes the next n run and event records in order to the listeners, and throws end-of-data if fewer remain.",
  "all files and all n",
  "All n.",
  "src/cpp/src/MT/LCReader.cc: readStream")
p("skipNEvents(n) equals reading n events",
  "Reading after skipNEvents(n) continues with the event that would have been returned by the (n+1)-th readNextEvent.",
  "all files and all n >= 0",
  "All n and files.",
  "src/cpp/src/MT/LCReader.cc: skipNEvents")
p("Concurrent writing is atomic per event",
  "When several threads write events and run headers through one MT writer, the file contains each record group (event header followed immediately by its event) exactly once, uninterleaved, in some order consistent with each thread's program order, and every entry of the event map points at its record.",
  "all interleavings of any number of threads, all events",
  "Unbounded number of schedules.",
  "src/cpp/src/MT/LCWriter.cc: writeEvent, writeRunHeader")
# ---------------------------------------------------------------- event data model I/O
p("Parameters round trip",
  "Any set of named int, float and string vector parameters reads back with the same keys and values.",
  "all parameter maps",
  "All maps.",
  "src/cpp/src/SIO/SIOLCParameters.cc: read, write")
p("Run header round trip",
  "Run number, detector name, description, active subdetectors and parameters of a run header read back unchanged.",
  "all run headers", "All field values.",
  "src/cpp/src/SIO/SIORunHeaderHandler.cc: read, write")
p("Event header round trip lists the stored collections",
  "Run number, event number, time stamp, detector name, parameters and the list of stored collections (name and type) of an event read back unchanged; transient collections and, when the writer is given a list of names, collections not on that list are the only ones left out.",
  "all events", "All field values and collection sets.",
  "src/cpp/src/SIO/SIOEventHandler.cc: read, write")
p("MCParticle round trip",
  "All persistent attributes and parent references of MCParticles read back as written, up to the documented float precision of momentum and mass, for every combination of status bits.",
  "all particles, all versions of the current format", "All values and flag combinations.",
  "src/cpp/src/SIO/SIOParticleHandler.cc: read, write")
p("Parent/daughter relations are restored",
  "After reading an event, p is listed as a daughter of q exactly when q is listed as a parent of p, with the multiplicity written, for all MCParticles of all collections of the event.",
  "all event graphs over any number of MCParticle collections",
  "All graphs.",
  "src/cpp/src/SIO/SIOParticleHandler.cc: restoreParentDaughterRelations")
p("Tracker hit types round trip",
  "SimTrackerHit, TrackerHit, TrackerHitPlane, TrackerHitZCylinder, TrackerRawData, TrackerData, TrackerPulse and TPCHit objects read back with all persistent attributes that their collection flags select, for every flag word.",
  "all objects and flag words", "All values and flag combinations.",
  "src/cpp/src/SIO/SIOSimTrackHitHandler.cc", "src/cpp/src/SIO/SIOTrackerHitHandler.cc", "src/cpp/src/SIO/SIOTrackerHitPlaneHandler.cc", "src/cpp/src/SIO/SIOTrackerHitZCylinderHandler.cc", "src/cpp/src/SIO/SIOTrackerRawDataHandler.cc", "src/cpp/src/SIO/SIOTrackerDataHandler.cc", "src/cpp/src/SIO/SIOTrackerPulseHandler.cc", "src/cpp/src/SIO/SIOTPCHitHandler.cc")
p("Calorimeter hit types round trip",
  "CalorimeterHit, SimCalorimeterHit and RawCalorimeterHit objects read back with all persistent attributes that their collection flags select, for every flag word.",
  "all objects and flag words", "All values and flag combinations.",
  "src/cpp/src/SIO/SIOCalHitHandler.cc", "src/cpp/src/SIO/SIOSimCalHitHandler.cc", "src/cpp/src/SIO/SIORawCalHitHandler.cc")
p("Track, cluster, reconstructed particle and vertex round trip",
  "Tracks (with all track states), clusters (with PIDs and hit weights), reconstructed particles and vertices read back with all persistent attributes and references, for every flag word.",
  "all objects and flag words", "All values and flag combinations.",
  "src/cpp/src/SIO/SIOTrackHandler.cc", "src/cpp/src/SIO/SIOClusterHandler.cc", "src/cpp/src/SIO/SIOReconstructedParticleHandler.cc", "src/cpp/src/SIO/SIOVertexHandler.cc")
p("Relations, vectors and generic objects round trip",
  "LCRelation, LCIntVec/LCFloatVec/LCStrVec and LCGenericObject collections read back with all attributes, for every flag word and for fixed and variable size objects.",
  "all objects and flag words", "All values and flag combinations.",
  "src/cpp/src/SIO/SIOLCRelationHandler.cc", "src/cpp/include/SIO/SIOLCVecHandler.h", "src/cpp/src/SIO/SIOLCGenericObjectHandler.cc")
p("Lazily unpacked events equal eagerly unpacked ones",
  "With lazy unpacking the collections obtained from an event are the same as with immediate unpacking, for any sequence of getCollection, takeCollection and removeCollection calls.",
  "all events and call sequences", "All call histories.",
  "src/cpp/src/IOIMPL/LCEventLazyImpl.cc")
p("Event collections behave as a name-indexed map",
  "addCollection/getCollection/removeCollection/getCollectionNames behave as a finite map from valid names to collections: duplicates and invalid names are rejected without effect, and names are listed in lexicographic order.",
  "all sequences of calls", "All histories.",
  "src/cpp/src/IMPL/LCEventImpl.cc")
p("Read-only objects cannot be modified",
  "After an event has been read in read-only mode every setter of the event, its collections and their elements throws ReadOnlyException and leaves the object unchanged.",
  "all objects and setter sequences", "All setters and states.",
  "src/cpp/src/IMPL/AccessChecked.cc", "src/cpp/src/IMPL/LCEventImpl.cc: setAccessMode", "src/cpp/src/IMPL/LCCollectionVec.cc: setReadOnly")
p("LCParameters behave as typed maps",
  "setValue(s)/getXVal(s)/getXKeys/getN of LCParametersImpl behave as three independent maps (int, float, string) from key to vector: a set replaces the old values of that key and type only, and missing keys read as 0 or the empty string.",
  "all sequences of calls", "All histories.",
  "src/cpp/src/IMPL/LCParametersImpl.cc")
# ---------------------------------------------------------------- utilities
p("Bit fields are independent and round trip",
  "Assigning an in-range value to a field of a BitField64 makes that field read back as the value and leaves every other field unchanged; out-of-range values are rejected by an exception.",
  "all non-overlapping field layouts, all field values and assignment orders", "All layouts and 64-bit words.",
  "src/cpp/src/UTIL/BitField64.cc: BitFieldValue, addField", "src/cpp/include/UTIL/BitField64.h")
p("Field descriptions reproduce the layout",
  "BitField64(fieldDescription()) has the same field names, offsets, widths and signedness as the original.",
  "all field layouts", "All layouts.",
  "src/cpp/src/UTIL/BitField64.cc: fieldDescription, init")
p("Cell IDs decode to what was encoded",
  "A cell ID encoded with CellIDEncoder, stored in a hit and decoded with CellIDDecoder gives back every field value, for every layout, including those that need the second 32-bit word.",
  "all layouts and field values, all orders of decoding hits", "All layouts and words.",
  "src/cpp/include/UTIL/CellIDEncoder.h", "src/cpp/include/UTIL/CellIDDecoder.h")
p("Calendar time conversion is exact",
  "Converting an LCTime time stamp to calendar components and back gives the same time stamp, the components are always a valid date, and dates convert in chronological order.",
  "all non-negative time stamps and all valid dates", "All 64-bit time stamps.",
  "src/cpp/src/UTIL/LCTime.cc")
p("Relation navigator is symmetric",
  "After any sequence of addRelation/removeRelation calls, b is listed in getRelatedToObjects(a) with weight w exactly when a is listed in getRelatedFromObjects(b) with weight w, and createLCCollection lists exactly these relations.",
  "all call sequences", "All histories.",
  "src/cpp/src/UTIL/LCRelationNavigator.cc")
p("Split writing loses nothing",
  "Writing through LCSplitWriter distributes the run headers and events, in order and without loss or duplication, over consecutively numbered files with distinct names, starting a new file exactly when the current one exceeded the size limit.",
  "all write sequences, file sizes and limits", "All histories.",
  "src/cpp/src/UTIL/LCSplitWriter.cc")
p("PID algorithm bookkeeping",
  "PIDHandler gives every algorithm added to a collection a distinct id, and id, name and parameter names stay consistent after any sequence of additions and after being stored with the collection and reloaded.",
  "all sequences of additions and reloads", "All histories.",
  "src/cpp/src/UTIL/PIDHandler.cc", "src/cpp/src/UTIL/CollectionParameterMap.cc")
p("Run-time relations stay consistent",
  "After any sequence of set/add/remove/merge operations on bidirectional run-time relations, a refers to b exactly when b refers back to a.",
  "all operation sequences on all objects", "All histories.",
  "src/cpp/include/LCRTRelations.h")
p("MCParticle parent/daughter lists are symmetric",
  "After any sequence of addParent calls p lists q as parent exactly as often as q lists p as daughter, and adding the same parent twice has no effect.",
  "all call sequences", "All histories.",
  "src/cpp/src/IMPL/MCParticleImpl.cc: addParent, addDaughter")
p("Track states are unique per location",
  "A track never holds two track states for the same location other than AtOther, and getTrackState(loc) returns the state added for that location.",
  "all sequences of addTrackState calls", "All histories.",
  "src/cpp/src/IMPL/TrackImpl.cc: addTrackState, getTrackState")
p("Simulated calorimeter hit energy is the sum of its contributions",
  "After any sequence of addMCParticleContribution calls the hit energy equals the initial energy plus the sum of all added energies in order, and the stored contributions sum to the added energy.",
  "all call sequences", "All histories.",
  "src/cpp/src/IMPL/SimCalorimeterHitImpl.cc: addMCParticleContribution")
p("StdHep XDR reader and writer are inverse",
  "Values written with the lXDR writer (ints, doubles, strings, arrays) are read back unchanged by the lXDR reader and every successful write is reported as success.",
  "all values and arrays", "All values.",
  "src/cpp/src/UTIL/lXDR.cc")
p("Flag words",
  "LCFlagImpl and BitSet32 set, clear and test exactly the addressed bit for bit numbers 0..31, and ignore other bit numbers.",
  "all words, all bit numbers and operation sequences", "All words and sequences.",
  "src/cpp/src/IMPL/LCFlagImpl.cc", "src/cpp/include/UTIL/BitSet32.h")

exec(open(os.path.join(os.path.dirname(__file__), "props_more.py")).read()) if os.path.exists(os.path.join(os.path.dirname(__file__), "props_more.py")) else None
out = os.path.join(os.path.dirname(os.path.abspath(__file__)), "..", "properties.jsonl")
with open(out, "w") as f:
    for q in P: f.write(json.dumps(q, ensure_ascii=False) + "\n")
print(len(P), "properties")
