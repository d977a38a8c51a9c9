# Formal model of LCIO in Lean 4: design

The subject is the C++ source in `/repo` (LCIO with its bundled SIO persistency library), read as text.
Nothing here was built or run against the C++ code.

## 1. Trusted base

* Lean 4.33.0's kernel. Every theorem is accepted by it and replayed by `vcheck`.
* Axioms: at most `propext`, `Classical.choice`, `Quot.sound`, for every theorem in `MANIFEST.json`. No axioms of our own, no `sorry`, no
  `native_decide`, no `bv_decide`. `decide +kernel` is used for concrete witnesses and finite tables only; it is checked by the kernel.
* The correspondence between the C++ text and the Lean definitions. Every definition cites the file and lines it models.
  This is checked by reading only, and by the seeded-bug experiments in `seeded/LOG.jsonl`.
* Assumptions about the platform, used everywhere: little-endian LP64 host (`SIO_LITTLE_ENDIAN`, 64-bit `size_t`, 32-bit `int`),
  IEEE floats handled as bit patterns, enough memory (allocation never fails), no I/O errors other than end of file unless stated.
* Parameters instead of models: the compression library (a pair of functions with `uncompress (compress x) = x`), the conversions between `float` and
  `double` where only their round trip matters (they are also defined exactly, in `Verif/Lcio/Float.lean`), the order in which `std::sort` leaves equal
  elements.

## 2. How the model is built

* Bytes are `UInt8`. Buffers, spans and files are `List UInt8`. Offsets and sizes are `Nat`, with explicit `% 2^32`
  where the C++ code truncates to `unsigned int`. 64-bit `size_t` arithmetic is assumed not to overflow.
* Every operation that can throw returns `Except Err`, where `Err` lists the error codes of the library.
  Undefined behaviour is a distinct outcome `Err.ub`; a loop that never ends is the distinct outcome `Err.diverge` (fuel ran out).
  A theorem `f x = .ok y` therefore also says that no undefined behaviour happens.
* A block's `write(device)` is modelled as the list of values it writes (`Item`), because the C++ handlers never look at
  the write device's state. A block's `read(device, version)` is a program over the read device (`RProg`), a small monad whose
  operations are the calls of the device.
* Object addresses are natural numbers; 0 is null. The memory addresses of the objects are arbitrary in every theorem.
* Read objects hold the raw match word in their pointer fields until relocation, as the C++ code does.
* Objects with state (writers, readers, events, bit fields, navigators and so on) are structures with one function per member function. Properties about
  histories quantify over lists of calls; the concurrent writer has an explicit schedule.

## 3. Layout

* `Verif/Sio/*`: model of the SIO library. `Verif/Lcio/*`: model of LCIO's I/O layer and event classes. `Verif/Util/*`: utilities.
* `Verif/Spec/*`: small independent specifications used in theorem statements.
* `Verif/Props/*`: the property theorems `Cnn_...` together with the examples that show their hypotheses can be met.
  Helper lemmas live in the model directories in `*Lemmas` files.
* `tools/`: scripts that write `properties.jsonl`, `MANIFEST.json`, `lean/Verif.lean` and this file.

## 4. Properties

For each property: what is modelled and how it is proved, then what came out. Where the code does not have the property, the negation is proved on a
concrete witness (`_fails_`), and the theorem that does hold is named `_partial`.

* **C01 Fixed-size array round trip.** `api::read/write` and `memcpy::reverse_copy` on byte lists; round trip by reduction of the copy loop to per-element reversal. *Result:* All element sizes, all buffers, cursors and later writes.
* **C02 Wire format is big-endian, zero padded to four bytes.** Same model; the bytes appended equal a directly written big-endian specification; alignment by induction over the writes. *Result:* Bytes and alignment.
* **C03 Write device never writes outside its buffer and never loses bytes.** Invariant `cursor <= size` and frame condition by induction over device calls; `Err.ub` is never produced. The bound "below 4 GiB" is needed because the padding mask is 32 bits wide. *Result:* Any sequence of writing calls and seeks.
* **C04 Read device never reads outside its buffer.** Case analysis of `api::read`. Finding: for byte lengths >= 2^32-3 the 32-bit padding mask makes the bounds check pass and the copy reads out of bounds. *Result:* Holds for requests below 2^32-3 bytes; fails above (32-bit padding mask), proved by C04_fails_for_huge_requests.
* **C05 String round trip.** Device-level string read/write; composition of C01. *Result:* Any string below 2^31 bytes.
* **C06 Vector round trip independent of the target's old contents.** Device-level vector read/write. Finding: a stored empty vector leaves the target's old contents in place. *Result:* Holds for non-empty vectors or empty targets; an empty vector leaves the old contents, proved by C06_fails_for_empty_vector.
* **C07 Name validation accepts exactly identifiers.** `validate` as a loop over the C string; equivalence with an identifier predicate. Finding: the loop stops at an embedded NUL. *Result:* Holds for names without NUL; fails with an embedded NUL, proved by C07_fails_for_embedded_nul.
* **C08 Version words.** Word arithmetic on `BitVec 32`. *Result:* Round trip and order.
* **C09 Pointer relocation restores the object graph.** Full model of pointer/tag calls, both relocation passes and both maps; the final bytes are shown to be a rendering under an injective numbering, and reading resolves it. *Result:* Any blocks, any decoders whose calls match the writers; dangling and undecoded targets become null.
* **C10 Relocation on read writes every registered slot and nothing else.** The relocation loop over an explicit memory; induction over the multimap. *Result:* Any read program on any buffer.
* **C11 Block round trip with selective decoding.** `write_blocks`/`extract_block`/`read_blocks` with arbitrary payload programs and decoders; induction over blocks. *Result:* Arbitrary decoders, also failing ones.
* **C12 Block directory.** Same, for `read_block_infos`. *Result:* Directory equals the specification and its entries tile the record. C12_nothing_left: also for arbitrary bytes, a directory that can be read tiles all of them.
* **C13 Decoding any record data terminates.** Fuel-indexed loop. Finding: a block length of 0 loops forever; partial: terminates when no block length word is 0. *Result:* Holds when no stored block length is zero; diverges otherwise, proved by C13_fails_for_zero_length.
* **C14 Record header describes the record.** `write_record` on buffers plus `read_record_info` on a stream model. *Result:* Any position in any file.
* **C15 Sequential reading returns exactly the records written.** Output and input stream models (position, eof and fail bits); induction over the records. *Result:* Any mix of compressed and uncompressed records, any codec.
* **C16 Compression is transparent.** Codec as a parameter with the single hypothesis `uncompress (compress x) = x`; zlib itself is not modelled. *Result:* Any codec that is lossless; zlib itself is not modelled.
* **C17 Record filtering is exact.** `read_records` loop with arbitrary predicate and callback against a list specification. *Result:* General form with stateful, throwing callbacks (C17_read_records) and the plain statement.
* **C18 Skipping records.** `skip_records` loop. Finding: `skip_n_records(0)` skips one record. *Result:* Holds for n >= 1, for skipping by name and for go_to_record; skip_n_records(0) skips one record, proved by C18_fails_for_zero.
* **C19 Truncated files yield a prefix and never corrupt data.** Reading from every prefix of a written file; induction over records, case split on the cut position, stale header buffer arbitrary. *Result:* Every cut position.
* **C20 Reading a record header is memory safe.** Finding: header lengths outside 8..116 overflow the header buffer; partial: safe inside the range. *Result:* Exact condition for the overflow; fails for stored header lengths below 8 or above 116.
* **C21 Run/event keys are encoded without collisions.** Word arithmetic on 32/64-bit integers. *Result:* Both directions, all 64-bit words.
* **C22 RunEvent ordering.** Case analysis with linear arithmetic. *Result:* Exact order, strict weak ordering, linear on event numbers >= -1.
* **C23 RunEventMap behaves as a map and counts correctly.** The map as an association list sorted by the C++ comparator; refinement to a function by induction over operations. *Result:* Any sequence of additions and clears with event numbers >= -1.
* **C24 Listing of runs and events.** Sortedness and exactness of the listing. *Result:* For the event map built by any additions; how a file gives these additions is C28.
* **C25 Random access index round trip.** Index block encoding. Findings: the single-run and 32-bit-offset decisions look at two entries only; partial under the conditions they assume. *Result:* Exact content of what comes back for every map (C25_index_exact); lossless under the stated conditions; two witnesses where entries are lost.
* **C26 Random access record round trip and fixed size.** Field-by-field round trip and length computation. *Result:* All field values; 136 bytes.
* **C27 File summary counts.** The random access manager over a history of sessions (create, append any number of times); fold over the sessions gives the fields of the final file record. *Result:* Smallest pair always right; largest right when every session writes events with non-negative run numbers; counts right after one session. C27_counts gives the exact numbers after any sessions (all but the last counted twice) and C27_fails_after_append shows for all such histories that the event count is too large; C27_fails_for_largest. C27_locations: the file record also says where the first and the last random access record are.
* **C28 Direct access finds every event.** Sessions as a state machine over the bytes of the file; invariant on the chain of access records; the direct reader follows it. *Result:* After any sessions whose index is faithful (distinct keys per file, event numbers not negative, and no session whose smallest and largest key share a run number while another run lies between) the map a direct reader builds has exactly the written keys and each position leads to the record put under that key. C28_fails_for_enclosed_run: the one-run index format drops run numbers of enclosed runs. With direct access readRunHeader returns the header of the run, or null if there is none (C28_run_header_partial).
* **C29 Appending preserves existing data.** The same state machine; what a reader gets after an append session is what it got before, followed by the new data. *Result:* Proved for every file made by closing a writer. Fails for files without a random access record at the end: opening for append empties them (C29_fails_without_record for every such file; C29_fails_for_unclosed_file), and for empty files (C29_fails_for_short_file).
* **C30 Direct and sequential access agree.** Reader model with and without event map on the same bytes. *Result:* For the same files direct readEvent finds the event iff it was written and agrees with the sequential search of a non-direct reader. Fails for enclosed runs (C28_fails_for_enclosed_run) and negative event numbers (C30_fails_for_negative_event). For run headers there is no search: without direct access readRunHeader returns null for every run (C30_fails_for_run_headers).
* **C31 Events come back in the order written.** Writer and reader models composed: objects to records to bytes and back (C15, C37, C38, C39-C44), for any sequence of reading calls. *Result:* Any number of write and append sessions, any sequence of readNextEvent/readNextRunHeader calls; the whole path from the objects to bytes and back is in the model. Behind the end: null once, then an exception.
* **C32 Multi-file reading is concatenation.** Reader with a list of files; induction over the files. *Result:* Any number of files, including empty ones; results of any sequence of calls are those of the concatenation. After null has been returned the next call throws.
* **C33 readStream delivers the requested number of records.** `readStream` as a loop over records with any number of listeners; the log of what each listener got against the list of written data. *Result:* Holds for one listener, or if restoring relations a second time changes nothing; readStream(n) for n > 0. False with two listeners (relations are restored once per listener, so the second one sees duplicated parents and daughters) and readStream(0) reads one record.
* **C34 skipNEvents(n) equals reading n events.** `skipNEvents` as a loop over records; same state afterwards as n calls of `readNextEvent`. *Result:* Holds while n events are left in the file being read. False otherwise: skipNEvents never goes to the next file, and leaves the stream in a failed state without reporting it, so that the next read throws.
* **C35 Concurrent writing is atomic per event.** Small-step interleaving semantics: atomic loads, encoding, compression, taking the mutex, single stream writes; forward simulation by the sequential writer. *Result:* Forward simulation over any schedule of any number of threads, each call split into its atomic loads, encoding, compression, taking the mutex and single stream writes inside: the file and event map are those of the sequential writer making the calls in the order in which they took the mutex. C35_file carries this to the closed file as read back, C35_as_session to the exact bytes of a sequential session, C35_completes shows absence of deadlock. Not modelled: levels other than zero or not, failing stream writes (see C115), threads that modify an event while it is written, open and close concurrent with writing. C35_closed: on a writer that is not open every call of every thread throws and nothing changes.
* **C36 Parameters round trip.** Round trip of the sorted maps. *Result:* Anywhere in a buffer, followed by any writes.
* **C37 Run header round trip.** Round trip of the block. *Result:* All run headers whose strings and counts are below 2^31.
* **C38 Event header round trip lists the stored collections.** Round trip of the block, with the subset postfix. Finding: type names containing the postfix. *Result:* Fails for type names containing the subset postfix; witness C38_fails_for_postfix_in_type.
* **C39 MCParticle round trip.** Round trip of the block, flags arbitrary. *Result:* Events whose particles have their parents in the same or an earlier collection; fails for parents in later collections (C39_fails_for_later_parent). Float precision shown to be stable and exact for float values.
* **C40 Parent/daughter relations are restored.** Graph specification. Findings: several collections; null parents. *Result:* As C39. Fails for parents in later collections and crashes if the parents are not read (C40_fails_for_later_parent, C40_fails_for_unread_parent).
* **C41 Tracker hit types round trip.** Round trip per handler, all flag words. *Result:* All eight classes, all flag words. TrackerHitPlane/ZCylinder objects inside a TrackerHit collection are not modelled.
* **C42 Calorimeter hit types round trip.** Round trip per handler, all flag words. *Result:* All three classes, all flag words.
* **C43 Track, cluster, reconstructed particle and vertex round trip.** Round trip per handler, all flag words. *Result:* Fails for tracks with two states at one location (unreadable file) and clusters with fewer weights than hits (C43_fails_*). PIDs come back in order of likelihood (C43_pid_order).
* **C44 Relations, vectors and generic objects round trip.** Round trip per handler. Findings for mixed generic objects. *Result:* Fails for generic objects of fixed but different sizes, stale fixed-size flags, unknown types (C44_fails_*).
* **C45 Lazily unpacked events equal eagerly unpacked ones.** State machine of the lazy event with its list of blocks; simulation by the unpacked event over any sequence of calls. *Result:* Proved: if a reader without lazy unpacking can decode the event record, a lazily unpacked event gives the same answers and contents for every careful sequence of calls, and the lazy reader finds the same event, also in the next of several files (C45_files for files that LCIO wrote, C45_reader_partial for any last file). Partial: removeCollection of a lazy event calls std::remove_if without erase, which leaves a null pointer in the list of blocks: asking for a collection after removing one (even if the removal was refused) or a second removal is undefined behaviour (C45_fails_for_removal, C45_fails_for_second_removal); null pointers in subsets are reported only once (C45_fails_for_null), collections added before unpacking are checked as well (C45_fails_for_added), and a compressed event without collections throws another exception (C45_fails_for_empty). An event record without header is refused by both readers (C45_orphan).
* **C46 Event collections behave as a name-indexed map.** Map refinement by induction over calls. *Result:* Partial: names are checked with c_str(), so a name with an embedded NUL is accepted whatever follows it. Collections are addresses; the collections themselves are in C45/C47.
* **C47 Read-only objects cannot be modified.** An event with its collections and elements in memory and their access flags; every member function that changes something; induction over calls. *Result:* Proved: every sequence of calls of member functions that look at the access mode throws ReadOnlyException at each call and changes nothing (event, collections, elements, run header). Partial: many setters do not look at it: bit setters of MCParticle, track parameters, track states, particle ids, LCRelation, LCGenericObject, LCFloatVec and so on, setFlag and parameters() of collections, addCollection and parameters() of events (C47_fails_for_elements, C47_fails_for_containers); and with lazy unpacking the elements of a read-only event are not read-only at all (C47_fails_for_lazy_unpacking).
* **C48 LCParameters behave as typed maps.** Map refinement by induction over calls. *Result:* Partial: the single value of a key set to an empty list is read out of bounds, and p.setValue(k, p.getStringVal(k)) copies a destroyed string. getXVals/getXKeys append to the given vector.
* **C49 Bit fields are independent and round trip.** 64-bit words and masks. Finding: the unsigned upper bound is off by one. *Result:* Proved for unsigned fields of up to 30 bits and signed ones of up to 32. Fails: an unsigned field accepts the number that is one too large (2^width) and stores 0; unsigned fields of 31 bits and signed ones of 33 to 62 bits reject every number; an unsigned field of 32 bits or more, or any field of 63 or 64 bits, is an undefined shift in the constructor.
* **C50 Field descriptions reproduce the layout.** String formatting and tokenising. *Result:* Also proved: the descriptions of any supported layout construct that layout. valueString lists names and numbers of all fields (C50_values, C50_digits).
* **C51 Cell IDs decode to what was encoded.** Encoder/decoder on top of C49. Finding: the decoder's pointer cache. *Result:* End to end: encode, store the event, load it, decode. Fails: the decoder caches the address of the last hit, so that a hit that has changed, or a new hit at the same address, gives the old cell ID (C51_order_partial has the condition).
* **C52 Calendar time conversion is exact.** Calendar arithmetic. Finding: 32-bit overflow in 2106. *Result:* The date of any non-negative time stamp is the one reached by counting days from 1970 in the Gregorian calendar, with the time of the day as rest; valid dates before 2^32 s after 1970 (February 2106) give the exact time stamp and come back unchanged, in chronological order; Unix times, additions and the text form are covered. Partial: from February 2106 on the 32-bit sum wraps (C52_fails_after_2106), nanoseconds are lost on the way back (C52_fails_for_nanoseconds), day 0, month 0, 25 o'clock and years beyond 32767 are accepted (C52_fails_for_wrong_dates), unixTime overflows in 2038.
* **C53 Relation navigator is symmetric.** Two maps kept in step; invariant by induction. *Result:* Proved for every sequence of calls and any addition of the weights: the navigator lists exactly the objects related by the calls, in the order in which they were first related, with the sum of their weights, the same from both sides, and the collection made from it gives the same navigator again up to the order.
* **C54 Split writing loses nothing.** State machine of the split writer. Finding: file name cache on reopen. *Result:* Proved for a new split writer and names with the extension .slcio: files, names, distribution and what a reader gets back; existing files are never touched, whatever calls are made. Partial: with another extension .?lcio nothing is split (C54_fails_for_other_extension), and a second session with the same split writer cannot be opened after one that needed only one file (C54_fails_for_second_open).
* **C55 PID algorithm bookkeeping.** State machine of the algorithm table. *Result:* Proved for any sequence of additions and of destroying and re-creating the handler, with one handler on the collection at a time: ids distinct, look-ups by name and id inverse, parameter names in order. Partial: two handlers on one collection give equal ids and lose algorithms (C55_fails_for_two_handlers). getParameterIndex gives the place of the name, -1 if there is none (C55_parameter_index). getParticleIDs, getParticleID and setParticleIDUsed select by the id of the algorithm (C55_particle_ids).
* **C56 Run-time relations stay consistent.** State machine over all objects. Finding: one-to-many re-parenting. *Result:* One to one: proved for all calls with non-null pointers. One to many and many to many: proved for calls without undefined behaviour. Partial: an object added to a second owner stays listed by the first (C56_fails_for_second_parent), removing an object from one that does not list it cuts its relation to the one that does (C56_fails_for_wrong_remove), merge_relations requires lists sorted by address (C56_fails_for_unsorted_merge) and merging an object with itself leaves different multiplicities (C56_fails_for_self_merge).
* **C57 MCParticle parent/daughter lists are symmetric.** State machine over all particles. *Result:* Calls that add daughters and parents to any number of particles, in any order and with refused calls in between, keep the two lists consistent; a parent is never listed twice. Partial: addParent on a particle that may be changed with a parent that is read-only leaves the parent listed without being a daughter (C57_fails_for_read_only_parent), so the theorem asks that parents can be changed when children can.
* **C58 Track states are unique per location.** Invariant by induction. *Result:* A track never has two states with the same location as long as states are added with addTrackState and locations are not changed afterwards. Partial: setLocation on a state that is already in the track, and assignment of a track to another one, both create duplicates (C58_fails_for_setLocation, C58_fails_for_assignment).
* **C59 Simulated calorimeter hit energy is the sum of its contributions.** Sums over an abstract commutative addition. *Result:* The energy of a hit is the sum in order of the calls, and each particle gets one contribution with the sum of what was added for it, for any addition; with the IEEE addition of floats the total equals the sum of the contributions whenever the sums are exact (all energies, of any sign, multiples of a power of two and the total of their magnitudes below 2^24 times it). Partial: with rounding the two differ (C59_fails_by_rounding).
* **C60 StdHep XDR reader and writer are inverse.** Byte-level model of lXDR. Findings: write status, array sizes. *Result:* Integers and doubles round trip; the reader is correct for well-formed strings and arrays. Partial: every successful write reports a write error, strings and arrays only write their length, longs wider than 32 bits are truncated, readFloatArray goes wrong, an error code is never cleared (one _fails theorem each).
* **C61 Flag words.** Word arithmetic. *Result:* Partial: testing a bit outside 0..31 with LCFlagImpl::bitSet is an undefined shift, and BitSet32 throws out_of_range; setting and unsetting are ignored as documented.
* **C62 Collections keep their names, types, flags and parameters.** Part of the event round trip: names, types, flags and parameters of the collections. *Result:* For events as in C39.
* **C63 An event deletes each collection it owns exactly once.** The destructor as a loop over the map; a trace of deleted addresses. *Result:* Partial: a collection added under two names is deleted twice, and a removed collection is never deleted although removeCollection is documented to delete it.
* **C64 A setter is read back by its getter and changes nothing else.** Every setter and getter of 22 classes as a function; case analysis over all pairs against a table that says which getter shows which setter. *Result:* Proved for all setters and getters of 22 classes, one theorem per class. Partial: ClusterImpl::setShape appends, track parameters throw with several track states, a weight of zero is read back as one, the end point of an MCParticle is lost after setSimulatorStatus, quality bits outside 0..31, short covariance vectors and indices outside of a fixed generic object are undefined behaviour, setChargeValues with the object's own values loses them (C64_fails_*).
* **C65 A crash while writing loses only what was not finished.** A crash leaves the first n bytes of the new file and, if the old file was longer, the rest of the old one. Records are parsed one by one up to the cut; a cut inside a record is an error of the reader or the end. *Result:* Proved for every crash point after the bytes of the old file (C65_crash_partial; every crash point if the file is new), and for every crash point that data of earlier sessions are still returned first (C65_earlier_partial). Fails inside the last 136 bytes of an old file, which a session that appends overwrites: a run header that was never written can be returned (C65_fails_in_file_record). Not modelled: operating systems that store the bytes in another order.
* **C66 Direct access also works for files that were not closed.** The recovery loop on the records of the file, by induction on what was written; a small function says which run headers and events it finds. *Result:* False in general: the recovery looks for a header and then reads the record after it, so that only what directly follows a run header is found. C66_unclosed_partial says exactly what is found and that it is read correctly. C66_fails_for_events: in every file with events only nothing is found. Files shorter than 136 bytes and compressed run headers make opening fail (C66_fails_for_short_file, C66_fails_for_compressed).
* **C67 Copying events from file to file changes nothing.** The theorem about storing and loading events is applied twice. It is shown that what is loaded meets its hypotheses again: sizes on the wire are those of before (permutation of item shapes), what the writer adds to collections is there already, narrowing to float twice is narrowing once. *Result:* C67_copy_partial: for all storable events whose vertex subsets consist of vertices of the event and whose generic objects have type names. The order of particle ids is kept if the likelihoods are strictly descending (otherwise equal likelihoods may change places, std::sort). Assumed of the standard library: sort sorts, conversion to float and back is idempotent (proved for IEEE). Fails for null pointers in vertex subsets (C67_fails_for_null_vertex: undefined behaviour) and for generic objects with empty type names (C67_fails_without_type_name). Not covered: subsets of generic objects, NaN likelihoods. C67_generations_partial: the same for copies of copies, any number of times.
* **C68 StdHep files deliver their events in order.** The bytes of a file are described by a grammar of XDR items, with tables at any positions. Each reading function is shown to read the items it should (a relation Reads closed under sequencing); the loop over tables and events by induction on what is left. *Result:* C68_events_in_order_partial: all files whose tables end. Fails for cycles of empty tables (never returns, for every number of steps), pointers -1 (the event before is returned for ever, without an error), records that are no events (taken for events: the error code is overwritten), events followed by a run block in their record (dropped), files that are cut off (null pointers are dereferenced).
* **C69 Collections made of StdHep events have the particles and relations of the events.** The three loops over the particles have invariants: parents and daughters are functions of the index, the third loop adds links X/T that are symmetric and complete, and its counter is the number of undecayed particles. *Result:* C69_collections_partial: events whose numbers of particles, taken modulo 10000 as the program does, are in the event. Weight and process number of an event without them are those of the event before (C69_fails_for_missing_weights); events with more than 9999 particles get wrong relations (C69_fails_for_many_particles); daughters outside the event and entries 94 without a mother are undefined behaviour (C69_fails_for_wrong_numbers). Conversions to float and the division by the speed of light are parameters of the model.
* **C70 Charges follow from the particle codes.** Decimal digits by linear arithmetic; the table of charges is compared with the quark content. *Result:* Codes for which the table is left are characterised exactly (C70_defined). Nuclei are neutral (C70_fails_for_nuclei), hadrons of gluinos get fractional charges (C70_fails_for_gluino_hadrons).
* **C71 Merging files keeps all run headers and events.** The programs are modelled as reading with readStream and writing each delivery. The theorems on readStream (C33), on copies of events (C67), on what is left after a crash (C65) and on writing and reading (C31, C32) are put together; the lengths of the copies are bounded by those of the originals. *Result:* C71_merge_partial for lcio_merge_files with any number of files (also empty ones), C71_fix_partial for copyfix and files whose writer crashed at any byte behind what the file had before. Partial because of the restrictions of C67 on the events, and of C65 on the crash. Run headers must also fit with the parameter LCIOFileName, which the reader adds or overwrites; compression must work for data up to the length of the records.
* **C72 Process flags say what is in the hard final state.** Particles are numbers with attributes and lists of parents and daughters. The search for the hard final state is compared with a definition of it; the loop over the particles is described by an invariant for the flag and the counters; the decay chain of the Higgs boson is followed by induction over its length, with fuel for the loop. *Result:* C72_flags is complete. C72_process_partial: events as generators write them (particles without parents first, one particle made by the beams), with at most one Higgs boson that decays. Flags for decays to gluons and for other decays are never set (the table has no entry for gluons, and the other flag is not used), the one for exotic particles is set for decays of the Higgs boson only; two Higgs bosons give one decay only; Higgs bosons without daughters are undefined behaviour and cyclic ones an endless loop; particles of the second beam are not looked at (one _fails theorem each).
* **C73 The HEPEVT common block holds the same event as the collection.** The loop that fills the arrays is an induction over the collection; addParent of fromHepEvt is followed for all entries; both are put together. Conversions between float and double are parameters. *Result:* C73_from is complete. C73_to_partial and C73_round_trip_partial: up to 4000 particles, parents in the collection, and for the round trip consecutive in it. Fails: more particles are written behind the arrays for every such event, parents outside of the collection are read before their array, mothers behind the last entry make fromHepEvt use elements behind the end of the collection, gaps between parents are filled, other names of the collection make fromHepEvt throw (one _fails theorem each).
* **C74 No file can lead a reader to undefined behaviour.** Each function of the reader is followed for arbitrary bytes, with the invariant that the stream shows one of the files; every place at which the model has undefined behaviour is traced back to one of ten faults of a file, which the specification lists. One file for each fault shows that it is one. *Result:* C74_reading_partial: for files without the faults listed in Spec.Danger. Fails for each of them that no other property covers: record headers that are too long (also C20), collections of unknown type, reconstructed particles in the format of version 1.2 or older (whose MCParticles are read into a single variable), vectors of 4 GiB, particles whose parent is not there, and a missing access record (one _fails theorem each). Not covered: opening other files with the same reader, two blocks of the same name in a record, running out of memory because of large lengths.
* **C75 Reading ends for every file.** The same induction with the outcome of a loop that does not end: positions grow unless a record or block has length zero, and the chain of access records is finite unless it has a cycle (pigeonhole over positions). *Result:* C75_reading_partial: for files without records of length zero, blocks of length zero (C13) and cycles of access records. Fails for records of length zero and for cycles, for every number of steps.
* **C76 Files have the documented format.** cmake/lcio.xml.in is translated to terms of a small language (tools/format.py, Spec/FormatData.lean), whose meaning is a function from named fields to bytes (Spec/Format.lean). For each kind of object the fields are named once; the bytes written by the model of the handler are shown to be the meaning of the description. *Result:* Run headers, event headers and random access records are complete. C76_event_partial: for collections on which document and code agree (Spec.Described); that the primary flag of vertices is written in the first of four bytes is a part of docWritten. C76_index_partial: for files below 2 GiB. Fails: calorimeter hits with bit 28, subsets of generic objects of fixed size, the primary flag of vertices, and the index of larger files, for which the condition in the document is never true (one _fails theorem each).
* **C77 Files of all documented versions can be read.** The same description, for every version number: the model of each read function, run on the meaning of the description, gives the object with the fields that are present in this version. Relocation as in C39-C44. *Result:* Run headers and event headers are complete. C77_event_partial: for collections on which document and code agree (Spec.docAgrees). Fails: MCParticles in files of version 0.8, contributions with bit 28 up to version 2.10, calorimeter hits with bit 28, planar and cylindrical hits up to version 1.11, reconstructed particles up to version 1.2, tracks in versions between 1.99 and 2.0 (one _fails theorem each). Daughters are restored from parents in C40, not here. Random access records and the index of old versions: only the current one (C25, C26).
* **C78 The bytes of a record depend only on what is stored.** Every byte of the record is covered by some item, so that the record is a function of its items: pointers and padding included. *Result:* 
* **C79 The newer StdHep reader gives particles their mothers.** The fourth loop of readEvent is an induction over the entries, on top of the result for LCStdHepRdr; the list of parents and daughters is given in closed form for all mother numbers. *Result:* C79_collections_partial, C79_all_mothers_partial: mother numbers of particles of the event, and mothers the code does not overlook. Fails: the first particle as only mother is ignored (`mom1 > 0` where it is 0), second mothers in descending order or negative are ignored, numbers of no particle are used unchecked. The rest of LCStdHepRdrNew.cc is the text of LCStdHepRdr.cc.
* **C80 The encoding of tracker cell ids stays the same once it is used.** Histories of calls by induction; `find` is related to first occurrences; for texts of five fields the places of the names are computed, so that their order is that of the fields. *Result:* C80_constant and C80_set are complete. C80_indices_partial: encodings of five fields. Fails: with other fields in front the indices are wrong although the text is accepted; texts that are no descriptions of fields are accepted and throw when used.
* **C81 Collection parameters keep a map.** One use of the class is related to a function from names to numbers; uses one after the other by induction. *Result:* C81_reads is complete. C81_one_map_partial: handles one after the other. Fails: of two handles at the same time, the one that goes out of scope first loses its changes.
* **C82 Iterators visit every element of a collection once.** Induction over the calls, with the collection at the time of each call as a parameter; typed vectors by induction over the collection. *Result:* C82_typed_vector, C82_checks_first and C82_missing are complete below 2^31 elements. C82_iterates_partial and C82_loops_partial: elements not null and all of the type. Fails: loops end at null elements, elements of another type and elements removed meanwhile are undefined behaviour, from 2^31 elements on none is returned.
* **C83 Warnings are printed as often as allowed.** The state after any history is given in closed form (registration and number of calls), by induction from the end of the history; texts byte for byte. *Result:* Partial: histories in which no warning is called for before it is registered. Fails: calling for an unregistered warning makes an empty entry, so that it cannot be registered any more.
* **C84 Adding records for direct access keeps what is in files.** The program is modelled on a disk of named files. Closed files: initAppend finds the record at the end and close writes the same bytes again. Others: recreateEventMap is followed by induction over the layout, then close writes only index and access records to the emptied file, which are read with the theorems of C33. *Result:* C84_keeps_partial: files that were closed after each session of writing, missing files and files of less than 136 bytes are not changed. Fails for the files the program is made for: everything in a file that was not closed is lost, since SIOWriter::open(append) empties files whose records for direct access had to be made anew; with -f all events of closed files are lost; with -f a missing file is undefined behaviour (fopen is not checked).
* **C85 Readers report how many events and runs there are.** The event map of a new reader is that of C28; the calls before keep the random access manager and the bytes of the stream, and createEventMap does not depend on the position of the stream. The program by induction over the names. *Result:* Files below 2 GiB that were closed, with lossless indices (C25) and event numbers that are not negative. Fails: without direct access reading starts again from the beginning; after the end of the file the call throws, and then returns 0; events with the same numbers count once; of several files only the current one counts. lcio_event_counter prints the sum for LCIO files (for StdHep files it takes a number of the header minus 1, which is a parameter here).
* **C86 Readers can be used again.** Readers are opened in any state; what uses keep (names, index, map) is an invariant over any history of uses, and reading afterwards is that of C31 with the names kept. *Result:* C86_lists is complete (well-formed files, any state of the reader before). C86_events_partial: events after single files. Fails: open(filename) keeps the list of names of the first use, so that run headers get the name of the first file, and after a list of files reading goes on with the second file of that list; a closed reader still reads; direct access is lost by close; without close the event maps of two files are mixed.
* **C87 What readers hand out lives until the next call and is then deleted.** SIO::SIOReader is modelled with a heap of events and run headers and its two pointers, around the reader of C31; that the heap holds exactly what the pointers point to is an invariant of any calls without exceptions, and after an exception a dangling pointer stays until the next call of its kind. *Result:* C87_events_partial: any history in which no call that reads throws while there is an object of its kind. Fails: after an exception of readNextEvent or readEvent the next such call deletes the event before a second time (undefined behaviour); the last event and run header are never deleted, as the destructor does nothing.
* **C88 Registered listeners are given everything that is read.** The sets of listeners are lists sorted by address; listeners are arbitrary functions that may change what they are given, throw, register and remove. The loop of the reader over its set is modelled with its iterator, so that removing the current listener is undefined. Proved by induction over the history, the set and what C33 says is delivered. *Result:* C88_everyone_partial: listeners that do not register, remove or throw. C88_changes_at_once: what happens when the first listener changes who is registered. Fails: listeners are called in the order of their addresses; a listener that removes itself, or removing one that is not registered, is undefined behaviour.
* **C89 Splitting a file loses nothing.** The program is the composition of the reader of C33, the rewriting of C71 and the writer of C54; that each part holds copies of what it was given comes from these, and the parts are put together by induction. *Result:* C89_split_partial: things that can be written again (as C71) and output names ending with .slcio (for others see C54).
* **C90 Events are processed in parallel, each once and in its run.** The main thread and the tasks are a transition system, with one step for each access to what they share. Safety is an invariant of all executions; that it can end is shown by finishing all tasks and then running the main thread; that it does end by a measure that all steps but those of polling decrease, and a second one for polling once all tasks have returned. *Result:* C90_order, C90_can_finish and C90_ends are complete for at least one task. C90_files_partial: files made by LCIO whose contents can be loaded. Fails: if hardware_concurrency() is 0 the program never ends; a negative LCIO_MAX_THREADS gives up to 4294967295 tasks, as the test for this is done on an unsigned number.
* **C91 A writer can be used for one file after the other.** A specification keeps for each file the sessions in which it was written, and what has been written since the open file was opened. The model of the writer with a disk refines it: an invariant relates the stream and the random access manager to those of a writer that was only used for this file (the session model of C27-C35); opening, writing and closing preserve it, and the result follows by induction over the calls. *Result:* C91_uses_partial: files are opened only when none is open, the compression level is set only then, and MT::LCWriter is closed only when a file is open. Fails: opening another file throws, but then SIOWriter can neither write nor be closed nor opened again, and MT::LCWriter closes without writing the records for direct access; MT::LCWriter closed twice, or before it was opened, dereferences a null pointer. Setting the compression level while a file is open is not covered by the theorem.
* **C92 A copy of an object is an object of its own.** Objects in memory have pointers to the parts that they own; the specification has values. An invariant relates them (each part belongs to exactly one object), it is preserved by all calls in the cases in which copying works, and for each other case it is proved what goes wrong after any history. *Result:* C92_values_partial: objects that own others (particle ids, contributions, raw data, elements) are copied and assigned only while they own none, and only while they can be changed; tracks can be copied in any case and assigned to empty tracks. C92_ids_partial: only tracks are copied or assigned, fewer than 2^32 objects. Fails: copies of clusters, reconstructed particles, simulated hits, TPC hits and collections share what they own, which is deleted twice; assignment to them loses what they owned; assignment to a track adds to its contents, to itself is undefined or never ends; copies of read-only objects are read-only and have the same id(); read-only objects can be assigned to.
* **C93 Classes with a fixed number of values keep them in memory and in files.** The class is a record of its sizes, name and description. The values after any sequence of setters by induction over it; files through the theorem for stored generic objects (C44); the description is compared with one that is made from the lists of names; the wrapping objects have an own small memory model for who deletes the data. That data from files is never deleted (C93_loaded) is an invariant of this memory: no object owns it. *Result:* C93_stored_partial inherits the condition of C44 that all objects of a collection have the same sizes. C93_description_partial: integers and floats of EventSummary. Fails: EventSummary has no doubles but stores 15 with each object, because ESD is declared as the enumeration of the floats; values that the class does not have can be set and read, which is undefined; copies of objects that made their data share it, and it is deleted twice.
* **C94 The Fortran interface gives Fortran programs the same data.** An array of the program is a list that cannot grow; writing or reading outside of it is undefined. The loops by induction over the vector; for strings the invariant is that everything in front of the place and behind the room for the remaining strings is kept. Elements by number: one function for each function of the interface. Vectors are of the simple kind or objects, and the casts of the interface accept only one of them. *Result:* The arrays of the program must be as large as it says, the strings must fit and have no zero bytes. Fails: the number of parameters of vertices and particle ids and of weights of clusters is one too large, and with size 0 they are written behind the array; strings that are too long run into each other or behind the array; run headers are used at the end of the file, where there is none, and the room for subdetectors is not checked; parents, positions and momenta of simulated tracker hits and elements to be removed are counted from zero; the range of calorimeter hits is not checked; no kind of vector can be used both for setting and getting parameters; the keys of string parameters are got with a misspelled name only.
* **C95 The program that checks collections succeeds just if the events are as asked for.** The program with its counters as a function of the options and the files. The counters by induction over the events read (`allEvents`), the range and the rejected options by cases over the options, and the loop with the theorems about sequential reading (C31, C32) and skipping (C34). Division of `float` numbers is a parameter that is exact for integers below 2^24. *Result:* The start event must be in the first file: otherwise the program is ended by an exception (`C95_fails_start`). Averages only of numbers that are exact as `float`. Fails: an empty collection does not fail with --pedantic; an exception while reading a damaged file is taken for its end, so that the program can succeed.
* **C96 Files read in parallel are printed as a whole and in order.** The threads, the mutex and the main thread as a transition system whose steps are reading an event, taking the mutex, printing a piece, and waiting for a thread. An invariant says what has been printed: whole events, and the beginning of one if the mutex is taken. Termination by the number of steps left, from the lengths of the files. *Result:* A file that cannot be opened, or is damaged, ends the program with its exception, also if other files have not been printed (`C96_missing_file`), as stated.
* **C97 What is printed tells what is in the event.** The printing functions as functions to texts. That texts determine their contents by cutting them at characters that cannot be in the parts before; the map of positions by induction over the collection; the list of descendants by induction over the depth and, inside, over the daughters, with the set of numbers that each call uses; it ends by a rank of the particles; the columns of a particle against a list of its values and a relation for the endpoint (`EndsAt`). *Result:* Numbers in floating point are printed by functions that are parameters (different numbers can look the same). Fails: names of collections of 30 or more characters, names or values with separators such as commas (`C97_fails_long_names`, `C97_fails_commas`), parents that are not in the collection are shown as the first particle, a particle that is in it twice; the list of descendants shows the status and the end of the mother (`C97_fails_status`) and does not end for loops (`C97_fails_loop`). The details of user objects with the operators of Operators.cc do not show the number of float values (`C97_fails_number_of_floats`), those of simulated calorimeter hits print the number of the hit behind the flag of the collection, and those of reconstructed particles print a decimal number as hexadecimal (`C97_fails_numbers_of_objects`).
* **C98 StdHep files are converted to LCIO files.** The program as a loop over the models of the StdHep readers (C69, C79) and of the writer (C31). The loop is a session of the writer by induction over the events of the reader; the sizes of the records are bounded by the number of particles; reading by C31, C39 and C40, with the daughters computed from the parents by symmetry of the relations. *Result:* `C98_stdhepjob_partial`, `C98_stdhepjob_new_partial`, `C98_existing_output`. Partial: events that are not usable (see C69, C79; `C98_fails_for_wrong_numbers`) and those with 10000 particles or more. Daughters come in the order of the collection, not in that of the StdHep event, and events without weight get that of the event before (C69).
* **C99 Pointers in events that have been read lead to objects of the event.** Spec.Sound says what can be relied on in an event: classes, elements, addresses and pointers, with the lists of objects and pointers of each class in Spec/Sound.lean. Lcio/SoundLemmas.lean proves for every reading program (all classes, all versions) which objects it makes and that it only tags objects that it has made, Lcio/SoundEvent.lean follows this through the blocks of a record, relocation, the event and the restoring of parents and daughters, and Lcio/SoundReader.lean through all calls of a reader, with the invariants of C74. *Result:* Proved for all bytes of files; hypotheses are that the codec throws exceptions and keeps to its buffer, that std::sort gives a permutation, and that no event record of the files has two blocks of the same name (then the second replaces the elements of the collection, which is not modelled). Fails for the classes of objects that pointers lead to: in a file that was not written by LCIO, or is damaged, a hit of a track can be an MCParticle.
* **C100 The type name of an object is the one of its collection.** Util.lctypename tries the classes in the order of the code; castsTo is dynamic_cast. Case analysis over the classes, and C99 for elements of events. *Result:* Proved for all classes but three: lctypename gives "TrackerHit" for TrackerHitPlane and TrackerHitZCylinder, because the base class is tried first, and "UNKNOWN" for TPCHit. A null pointer, for which "UNKNOWN" is returned, is not modelled.
* **C101 dumpevent shows the event that is asked for.** Util.dumpMain has the arguments, the variable and the files as arguments; it calls the model of the reader. The theorems follow from C30 and C34, and from the round trip of decimal numbers through atoi. *Result:* Proved for the n-th event up to one behind the last, and for run and event numbers that are not negative. False beyond: skipping past the end leaves the stream in a failed state, and the exception that reading throws then is not an IOException, so that the program is ended by it (C101_fails_beyond); the same for a file that is not there (C101_fails_without_file). The text of dumpEventDetailed is not modelled.
* **C102 Printing an event in detail does not crash.** Util/DumpDetailed.lean models which objects and parameters are used when an event is printed (LCTOOLS.cc:83-1275 and the lcio_short operators of Operators.cc), with undefined behaviour for null pointers and objects of another class; the text is left out. Spec/Printable.lean says what an event needs besides what C99 gives. Proved by going through the classes. *Result:* Partial. C102_partial and C102_reader_partial: events that a reader gives and that are Printable (pointers lead to objects of the right class, particles of particles are there, encodings are valid, particle ids fit their algorithms) are printed. It fails for null pointers in subset collections (only with LCIO_IGNORE_NULL_IN_SUBSET_COLLECTIONS), for jets whose particles were not read (C102_fails_after_reading_jets: the pointers getParticles()[l] are the only ones that are not checked), for particle ids of clusters with fewer parameters than names, and for invalid encodings, whose exception is not caught. Each is proved in general and shown for an event; two of them after reading a file.
* **C103 Collections of user objects are printed with their own description.** Util/DumpDetailed.lean models `header` of Operators.cc:249-267 with its static variable. Induction over the collections printed. *Result:* Partial, because it is false: the header is in a static variable that is set once. C103_first_partial: the first collection a program prints has its own description. C103_fails_for_others: all others have that of the first.
* **C104 Views of a buffer show the bytes that were asked for.** Views are modelled with iterators as integers and sizes as 64 bit words (Sio/Span.lean); an induction over the chain of calls shows that the view is a slice of the buffer (Sio/SpanLemmas.lean), and that all that can be seen through it is the list of bytes that the specification (Spec/Views.lean) gives. *Result:* Proved for all calls in which start + count does not wrap around 2^64 (C104_partial), which holds for all calls made while records are read (C104_records). Otherwise the check passes and at reads behind the memory (C104_fails_for_large_sums). dump prints max_bytes + 2 bytes (C104_fails_for_dump_limit) and divides by zero for line_split 0; a part of an invalid view is valid. The base of the printed numbers is not modelled.
* **C105 anajob shows everything that is in the files.** The program is modelled with the reader that is opened and closed again and again (Util/Anajob.lean). That the access manager gives the same numbers after it was cleared comes from the induction over the sessions of C28, what is read from C86; loops by induction. *Result:* C105_partial: files below 2 GiB that were closed, with lossless indices and event numbers that are not negative (C25, C85). Fails: the number of events of a file is too small if events have the same numbers (C105_fails_same_numbers); if a file does not exist the program is ended by the exception, before anything of the others is shown (C105_fails_missing_file). The texts of dumpRunHeader and dumpEvent are not in this model (see C97).
* **C106 The closest track state is found.** The loop is modelled for any arithmetic of float and double (Lcio/Closest.lean), the comparison on bit patterns (Lcio/Float.lean). Induction over the states: what was found is the first of the least of those seen. Spec/Closest.lean says what that means. *Result:* C106_partial: tracks with at least one state, if all distances as they are computed are numbers; of these the first of the smallest is found. Fails: undefined behaviour for tracks without states (C106_fails_without_states); if the distance of the first state is not a number it is returned, however close the others are (C106_fails_for_nan). Rounding: computed distances are compared, so states at different distances whose computed squares are equal (or overflow) count as equally close.
* **C107 Splitting a file and merging the parts gives the file again.** What was loaded can be stored and copied again (Lcio/CopyLemmas5.lean), and being the same event is transitive (Lcio/SameLemmas.lean). With these, the theorems about lcio_split_file (C89) and lcio_merge_files (C71) are put together: the files that the split writer makes hold what was distributed. For stages, merging is done group by group by induction on the list of groups (Props/Stages.lean). *Result:* C107_partial: a file is split and the parts are merged. C107_stages_partial: files are merged in groups and the results are merged; the new file gives the same as the files, and so does the file made from all of them at once. The restrictions are those of C71 and C89, and run headers must be writable with the names of the parts (groups) in their parameter LCIOFileName, which is the only difference to the original.
* **C108 Cell ids of ILD always have the canonical fields.** The two constructors of ILDCellIDEncoder on top of the model of CellIDEncoder (C51); a comma separates the tokens of a text in general, so the loop that adds fields starts with the canonical ones. *Result:* C108_fields, C108_decodes and C108_further hold for all further fields. Two things are false of the code: with an empty text the constructor throws after it has changed the encoding of the collection (C108_fails_for_empty), and a further field with the name of a canonical one hides it when asked by name (C108_fails_for_repeated_name).
* **C109 What a Fortran program stores in events is what it gets.** The functions of the interface are sequences of the setters of C64 and loops over arrays of the program; programs are lists of calls. By induction over the calls; what was given for each hit and what was set last are computed from the calls only. *Result:* C109_event_headers_partial: names without zero bytes that fit. C109_calorimeter_hits_partial: the energy is the given one plus those of the contributions. C109_particles_partial: without lcmcpsetendpoint, no signalling NaNs. Fails: time stamps are cut to 32 bits, so that those in nanoseconds are lost; the energies of contributions are added to the energy that was given; setting the endpoint changes the simulator status; momenta and masses stored by other programs in double precision are rounded.
* **C110 Adding collections to an event that was read changes nothing of what was there.** The event that was loaded and the extended event are both instances of storing and loading; that the old collections are the same is the argument for copies (C67) with the list of collections replaced by any list that has them in order, where the daughters of old particles are restored from old particles only. *Result:* Partial: the restrictions of C67. When a daughter is added to a particle that was there, in a collection whose name comes before the one of its parent, other particles that were not changed lose their daughters (`C110_fails_added_daughter`).
* **C111 The LCIO shell shows what is in files.** Model of the shell in Util/Lsh.lean on top of the model of readers: the global variables are a structure, each command is a function on it, and the main loop runs over lists of words. The specification (Spec/Lsh.lean) describes the place by a list of numbers and says what is shown there in terms of what was written to the file. An invariant (Stands) connects the two and is kept by every command, so the theorem holds for all sequences of commands; the reader is treated with the lemmas for readers that are used several times (C86) and for searching (C30). *Result:* Fails for the number of events after a second file was opened (it is never reset), for files opened after a large one (events are not counted any more), for runs without header (not listed), for lines without words and commands without argument (undefined behaviour), and for files that do not exist (the exception is not caught). Dumped run headers can have the name of another file as parameter, as in C86. Signals, paging and the layout in columns are not modelled. C111_slashes: slashes at the beginning or the end of a path and doubled ones mean nothing.
* **C112 Nothing is lost silently when the disk becomes full.** Simulation: the writer on the full disk against the writer on a disk without limit, record by record; the file is the beginning of the other one. What can be read from it is C65. *Result:* C112_full_disk: what close throws is an I/O failure or a bad state, never undefined behaviour; also what happens then: after the first exception the writer is lost (if anything was written, close throws each time it is called and leaves the stream open, so that no other file can be opened). If not even the first record fits, the call that writes it throws, but close returns normally. The disk is modelled as a limit on the length of the file; it stays full, and bytes that are in the file can be overwritten.
* **C113 What is printed of an object does not depend on what was printed before.** Util/Printing.lean models the format of a stream (width, fill character, base, sign, alignment, precision, notation) and the operators as lists of insertions. Abstract interpretation: which parts of the format are known after the first insertions; operators that set all parts they use (steady) print the same for all formats, operators that leave the format as it was (tidy) do not disturb others. *Result:* Fails: after the details of an event (filled on the right, number 12 of an object printed as 12000000), after the line of a flag word (hexadecimal numbers), after the line of a calorimeter hit or a track state (precision, notation, sign). Proved for operators that set all they use, after anything, and for all operators after those that reset the format or leave it alone. Floating point numbers are printed by functions of the format that are parameters. Operators for tracker hits, tracks, clusters, reconstructed particles, simulated hits and the details of calorimeter hits, particles and vertices are not in this model.
* **C114 The listing of a file shows its records and blocks.** Util/SioDump.lean models dump_records. Induction over the records; the blocks of what was written are those of C12, after the codec of C16. *Result:* The codec is lossless and succeeds, as in C16. If more records are to be skipped than exist, nothing is printed, not even the titles. Fails for files that were cut: a record whose data are missing is listed as if it were there, without an exception (`C114_fails_truncated`).
* **C115 Threads that write to a full disk are told.** Lcio/MtDisk.lean: the steps of C35 on a stream that can hold a limited number of bytes (C112). Invariant over any schedule: the calls that succeeded are a sequential order, and if the disk is full one more call gives the bytes of the file, up to the limit. What can be read is C65. *Result:* C115_order: at any time, for any open file. C115_file: a new file after close, with the reader and with what close throws: an I/O failure if it is the records it writes that do not fit, a bad state if a call was stopped before. C115_completes: no deadlock. As for the writer for one thread, if not even the first record fits, its call throws, but close returns normally. C115_file takes the compression as constant (zero or not); C115_order does not. Opening and closing concurrently with writing is not modelled.
* **C116 Fortran programs are told whether writing and reading succeeded.** Util/FortranIo.lean: each function with its try block around the model of the writer on a full disk (C112) and of the reader (C31): it returns a code, an exception leaves it and ends the program, or the behaviour is undefined. Proved by translating what C112, C65 and C31 say about exceptions to what the functions return. *Result:* C116_writing_partial: lcwrtopen, lcwrtwriterunheader, lcwrtwriteevent, lcwrtclose; if nothing at all fits, lcwrtclose returns LCIO_SUCCESS (the writing functions do not). C116_reading: files that were closed. Fails: lcrdrreadnextevent and lcrdrreadnextrunheader do not catch exceptions, so that a file that was cut off ends the program, and so does one more call after 0 was returned; lcreadnextrunheader uses the null pointer after the last run header; lcwriterunheader does not catch the exceptions of the SIO library, so that a full disk ends the program. Not modelled: lcrdropenchain, and giving other pointers than the right ones.
* **C117 Lists that a relation navigator hands out stay correct.** Util/NavRefs.lean: the maps of the navigator with the nodes allocated for them; a reference is a node, and the use of one in a deleted node is undefined. Proved with an invariant (every node of the map holds the vectors of the relations of its object) and what each call does to nodes, against the list of relations of C53 (Spec/Navigator.lean, Spec/NavRefs.lean). *Result:* C117_lists_partial: if the last relation shown is never removed. C117_copied_list: removing through a copy of the list. Fails: removing the last relation of an object deletes the list, and every later use is undefined (C117_fails_last_removed, for all histories); a loop that removes what it finds in the list leaves every second relation (C117_fails_removing_in_loop) and is undefined if there is only one (C117_fails_removing_the_only_one). The documentation of the getters does not say how long the references may be used. In the model memory is not used again; in the program the list could then also show something else.
* **C118 Going through the names of an event visits every collection once.** Lcio/NameList.lean: the event of C46 with the vector of names that getCollectionNames fills and points to, and a loop over it by number with any calls for each name. Induction over the turns of the loop. *Result:* C118_each_once_partial: if the program does not ask for the names again. C118_looking_partial: if it adds and removes nothing. C118_removes_selected: removing. Fails: if it removes each collection and something asks for the names (writing and printing the event do), every second collection is left (C118_fails_asking). Loops with iterators are not modelled; they are undefined whenever someone asks for the names. That includes getCollection for events that are unpacked only when used (C45), whose first call asks for the names.
* **C119 Objects in the collections of an event are deleted once.** Lcio/Elements.lean: the event of C46 and C63 with the elements and flag words of collections; deletion of objects one after the other, with the second deletion of an object undefined. What is in the collections and which are subsets is said in terms of the calls (Spec/Elements.lean). Invariant: what is in a collection is a sublist of what was added to it; the list of what is deleted then has no duplicates. *Result:* C119_deleted_once_partial: each object is added at most once to collections other than those that are subsets in the end, and what is in the collections in the end is deleted. Fails: an object in two collections that are not subsets is deleted twice (C119_fails_two_owners, for all histories); setFlag replaces the whole flag word, so that a subset collection whose flags are set after setSubset deletes objects that are not its own (C119_fails_flag); an object that is removed from its collection is never deleted (C119_fails_removed). What the destructors of the objects themselves delete is in C92.
* **C120 What is attached to an object at run time stays with it and is deleted once.** Lcio/Ext.lean: objects with maps of shared pointers to places, which are destroyed when no object has them any more; deletion as in C119. Spec/Ext.lean says from the calls what is attached, what was given away and which objects exist. Invariants: nothing is in two places that own it, and what was deleted was in a place that no object has; without copies, every object has places of its own that hold what is attached. *Result:* C120_deleted_once: for all programs, with copies, that give each thing away once. C120_nothing_lost: if only containers own things, everything is deleted in the end. C120_values_partial: without copies; also what exactly is deleted with an object. C120_copied_tracks: tracks do not share. Fails: copies of other objects share the extensions that were used before (C120_fails_copies); a pointer that is replaced is never deleted (C120_fails_replaced); what is given to two objects is deleted twice (C120_fails_two_owners). Containers are changed with push_back only.
* **C121 Merging files on a full disk does not fail silently.** Util/MergeDisk.lean: the programs of C71 with the writer of C112, stopping at the first call that throws; the destructor closes the writer, and an exception that leaves it terminates the program. C112 is applied to the calls that were made. *Result:* C121_full_disk_partial: if the new file does not fit, the program is terminated (the destructor that closes the writer throws), unless not a single thing was written. C121_fails_no_room: then the program ends with status 0, after the message that something went wrong. There are the restrictions of C71. C121_fix_partial: the same for copyfix with a file that is damaged because the machine stopped while it was written. Closing the reader is left out.
* **C122 Merging files keeps the files that are merged.** Util/MergeNames.lean: the program of C71 with all files on the disk; the order in which the files are opened is that of the code. Spec/MergeNames.lean says which name the new file has. By C71, applied to the files as they are when they are read. *Result:* C122_partial: if the new file is none of the files that are read. C122_missing: nothing is changed if a file does not exist. Fails if the new file is the first one that is read: its content is lost without a message (C122_fails_first). If it is one of the others, what is read from it depends on buffers; this is not modelled. copyfix: C122_copyfix_partial; a file that does not exist is only reported by a message, with status 0 (C122_fails_copyfix_missing); a file that is copied to itself is empty afterwards (C122_fails_copyfix_same). There are the restrictions of C71; two names are the same file only if they are equal.
* **C123 Removing selected elements of a collection in a loop.** Util/RemoveLoop.lean: four loops that call the functions of the collection (Lcio/Setters.lean). By induction on the elements that are left to be visited. *Result:* C123_from_end, C123_stay: loops from the end, and loops that stay at an index after a removal, are correct. C123_read_only: nothing is changed. C123_forward_partial: a loop that always goes on is correct if no two selected elements are neighbours; otherwise a selected element stays (C123_fails_forward). A loop that asks for the number of elements only once accesses elements behind the end (C123_fails_counted).

## 5. What is modelled and what is not

Modelled, function by function:

* `sio/src/api.cc`, `sio/include/sio/{api,buffer,block,io_device,definitions,memcpy,version}.h`, `sio/src/{block,buffer,io_device}.cc`: all of
  reading, writing, relocation, records, streams and compression except what is listed below.
* `src/cpp/src/SIO/*`: all handlers, `LCIORecords`, `RunEventMap`, `LCIORandomAccess*`, `SIOWriter`; `SIOReader` through `MT::LCReader`, which it wraps, with what it owns and its listeners.
* `src/cpp/src/MT/LCReader.cc`, `LCWriter.cc` (also when used for several files, as `SIOWriter`); `src/cpp/src/IOIMPL/LCEventLazyImpl.cc`.
* `src/cpp/src/IMPL/*`: setters, getters, access checks, copying, assignment and deletion of all classes; `LCEventImpl`, `LCCollectionVec`, `LCParametersImpl`, `LCFlagImpl`.
* `src/cpp/src/UTIL/`: `BitField64`, `CellIDEncoder`, `CellIDDecoder`, `LCTime`, `LCRelationNavigator`, `PIDHandler`, `CollectionParameterMap`,
  `LCSplitWriter`, `lXDR`, `LCRTRelations.h`, `BitSet32.h`, `lStdHep`, `LCStdHepRdr`, `LCStdHepRdrNew`, `ProcessFlag`,
  `LCTrackerConf.h` and `ILDConf.h` (the cell id encodings), `LCIterator.h`, `LCTypedVector.h`, `LCWarning`, `LCFixedObject.h`, `EventSummary.h`,
  `Operators.cc` (which objects are used by all operators, C102; the texts of the operators for events, collections, parameters, user objects, relations, run headers, particle ids,
  MC particles, calorimeter hits, raw data, vertices and track states, C113).
* `cmake/lcio.xml.in`, translated by `tools/format.py` (the second field `momentum` of MCParticles is called `momentum2`; `SiliconRawHit` is described, but there is no
  handler for it).
* `src/cpp/src/CPPFORT/HEPEVT.cc`; of `src/cpp/src/EXAMPLE/` the programs `stdhepjob`, `stdhepjob_new`, `lsh` (without signals, paging and columns), `lcio_merge_files`, `copyfix`, `addRandomAccess`, `lcio_event_counter`,
  `lcio_split_file`, `lcio_check_col_elements`, `lcio_parallel_read`, `dumpevent`, `anajob` (what it counts and prints) and `lcio_parallel_processing` (without `usleep`, `rand` and the lines about the scheduler itself).

Not modelled:

* zlib, the file system apart from contents of files by name and (C112, C115) a limit on the length of a file, failing allocation, signals. Compression levels are only zero or not zero.
* `TrackerHitPlane` and `TrackerHitZCylinder` objects stored in a collection of type `TrackerHit`; `&v[0]` of an empty vector (formally undefined,
  harmless in practice).
* A record with two blocks of the same name, when written (reading any bytes is modelled).
* Sorting of particle ids with a NaN likelihood, which is not a strict weak ordering.
* In C74 and C75: opening other files with a reader that was not closed, and lengths for which the memory of the machine is not enough.
* Access modes of events handed out by the reader sessions of C31-C34 (the modes themselves are in C47).
* Opening or closing an `MT::LCWriter` while other threads write, and threads that change an event while it is written.
* Access checks in the setters used by the cell id encoder (they are in C64), a default-constructed `CellIDDecoder`.
* `takeCollection` of something that is not an `LCCollectionVec`; run-time relations of deleted objects.
* Opening failures of XDR files; two names of one file (links) in the split writer.
* What a lazily unpacked event holds in its collections after unpacking has failed half way (no call shows it).
* Of the Fortran interface only what C94, C109, C116 and C117 are about (files, the lists of relation navigators, arrays, strings, elements by number, headers, parameters, hits, particles) and `hepevt2lcio`/`lcio2hepevt`; the functions that only call a getter or setter are not modelled. The Java, Python and ROOT bindings, other examples and test programs, dumping to text except for what C96, C97, C101, C102, C105, C113 and C114 are about (the rest of `LCTOOLS`, `Operators`), `IndexMap` (its constructor always throws), and of
  `lStdHep` the printing functions, ntuples and the numbers in run records.
