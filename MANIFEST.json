{
 "claims": [
  {
   "property": "C01",
   "status": "proved",
   "theorems": [
    "Props.C01_array_round_trip"
   ],
   "note": "All element sizes, all buffers, cursors and later writes."
  },
  {
   "property": "C02",
   "status": "proved",
   "theorems": [
    "Props.C02_wire_format",
    "Props.C02_alignment"
   ],
   "note": "Bytes and alignment."
  },
  {
   "property": "C03",
   "status": "proved",
   "theorems": [
    "Props.C03_write_memory_safe"
   ],
   "note": "Any sequence of writing calls and seeks."
  },
  {
   "property": "C04",
   "status": "partial",
   "theorems": [
    "Props.C04_read_in_bounds_partial",
    "Props.C04_fails_for_huge_requests"
   ],
   "note": "Holds for requests below 2^32-3 bytes; fails above (32-bit padding mask), proved by C04_fails_for_huge_requests."
  },
  {
   "property": "C05",
   "status": "proved",
   "theorems": [
    "Props.C05_string_round_trip"
   ],
   "note": "Any string below 2^31 bytes."
  },
  {
   "property": "C06",
   "status": "partial",
   "theorems": [
    "Props.C06_vector32_partial",
    "Props.C06_vector64_partial",
    "Props.C06_vectorString_partial",
    "Props.C06_fails_for_empty_vector"
   ],
   "note": "Holds for non-empty vectors or empty targets; an empty vector leaves the old contents, proved by C06_fails_for_empty_vector."
  },
  {
   "property": "C07",
   "status": "partial",
   "theorems": [
    "Props.C07_validate_partial",
    "Props.C07_fails_for_embedded_nul"
   ],
   "note": "Holds for names without NUL; fails with an embedded NUL, proved by C07_fails_for_embedded_nul."
  },
  {
   "property": "C08",
   "status": "proved",
   "theorems": [
    "Props.C08_version_round_trip",
    "Props.C08_version_order"
   ],
   "note": "Round trip and order."
  },
  {
   "property": "C09",
   "status": "proved",
   "theorems": [
    "Props.C09_object_graph"
   ],
   "note": "Any blocks, any decoders whose calls match the writers; dangling and undecoded targets become null."
  },
  {
   "property": "C10",
   "status": "proved",
   "theorems": [
    "Props.C10_relocation_exact"
   ],
   "note": "Any read program on any buffer."
  },
  {
   "property": "C11",
   "status": "proved",
   "theorems": [
    "Props.C11_blocks_handed_out",
    "Props.C11_skipped_blocks"
   ],
   "note": "Arbitrary decoders, also failing ones."
  },
  {
   "property": "C12",
   "status": "proved",
   "theorems": [
    "Props.C12_directory",
    "Props.C12_tiling",
    "Props.C12_nothing_left"
   ],
   "note": "Directory equals the specification and its entries tile the record. C12_nothing_left: also for arbitrary bytes, a directory that can be read tiles all of them."
  },
  {
   "property": "C13",
   "status": "partial",
   "theorems": [
    "Props.C13_terminates_partial",
    "Props.C13_fails_for_zero_length"
   ],
   "note": "Holds when no stored block length is zero; diverges otherwise, proved by C13_fails_for_zero_length."
  },
  {
   "property": "C14",
   "status": "proved",
   "theorems": [
    "Props.C14_record_header"
   ],
   "note": "Any position in any file."
  },
  {
   "property": "C15",
   "status": "proved",
   "theorems": [
    "Props.C15_sequential_reading"
   ],
   "note": "Any mix of compressed and uncompressed records, any codec."
  },
  {
   "property": "C16",
   "status": "proved",
   "theorems": [
    "Props.C16_compression_transparent"
   ],
   "note": "Any codec that is lossless; zlib itself is not modelled."
  },
  {
   "property": "C17",
   "status": "proved",
   "theorems": [
    "Props.C17_read_records",
    "Props.C17_record_filtering"
   ],
   "note": "General form with stateful, throwing callbacks (C17_read_records) and the plain statement."
  },
  {
   "property": "C18",
   "status": "partial",
   "theorems": [
    "Props.C18_skip_n_partial",
    "Props.C18_fails_for_zero",
    "Props.C18_skip_named",
    "Props.C18_go_to_record"
   ],
   "note": "Holds for n >= 1, for skipping by name and for go_to_record; skip_n_records(0) skips one record, proved by C18_fails_for_zero."
  },
  {
   "property": "C19",
   "status": "proved",
   "theorems": [
    "Props.C19_truncation",
    "Props.C19_contained"
   ],
   "note": "Every cut position."
  },
  {
   "property": "C20",
   "status": "partial",
   "theorems": [
    "Props.C20_overflow_iff",
    "Props.C20_header_safe_partial",
    "Props.C20_fails_for_long_header"
   ],
   "note": "Exact condition for the overflow; fails for stored header lengths below 8 or above 116."
  },
  {
   "property": "C21",
   "status": "proved",
   "theorems": [
    "Props.C21_key_encoding",
    "Props.C21_key_decoding"
   ],
   "note": "Both directions, all 64-bit words."
  },
  {
   "property": "C22",
   "status": "proved",
   "theorems": [
    "Props.C22_order",
    "Props.C22_strict_weak",
    "Props.C22_linear"
   ],
   "note": "Exact order, strict weak ordering, linear on event numbers >= -1."
  },
  {
   "property": "C23",
   "status": "proved",
   "theorems": [
    "Props.C23_lookup",
    "Props.C23_counts"
   ],
   "note": "Any sequence of additions and clears with event numbers >= -1."
  },
  {
   "property": "C24",
   "status": "proved",
   "theorems": [
    "Props.C24_listing"
   ],
   "note": "For the event map built by any additions; how a file gives these additions is C28."
  },
  {
   "property": "C25",
   "status": "partial",
   "theorems": [
    "Props.C25_index_exact",
    "Props.C25_index_round_trip_partial",
    "Props.C25_fails_for_enclosed_run",
    "Props.C25_fails_for_far_entry"
   ],
   "note": "Exact content of what comes back for every map (C25_index_exact); lossless under the stated conditions; two witnesses where entries are lost."
  },
  {
   "property": "C26",
   "status": "proved",
   "theorems": [
    "Props.C26_round_trip",
    "Props.C26_size"
   ],
   "note": "All field values; 136 bytes."
  },
  {
   "property": "C27",
   "status": "partial",
   "theorems": [
    "Props.C27_summary_partial",
    "Props.C27_counts",
    "Props.C27_fails_after_append",
    "Props.C27_fails_for_largest",
    "Props.C27_locations"
   ],
   "note": "Smallest pair always right; largest right when every session writes events with non-negative run numbers; counts right after one session. C27_counts gives the exact numbers after any sessions (all but the last counted twice) and C27_fails_after_append shows for all such histories that the event count is too large; C27_fails_for_largest. C27_locations: the file record also says where the first and the last random access record are."
  },
  {
   "property": "C28",
   "status": "partial",
   "theorems": [
    "Props.C28_event_map_partial",
    "Props.C28_fails_for_enclosed_run",
    "Props.C28_run_header_partial"
   ],
   "note": "After any sessions whose index is faithful (distinct keys per file, event numbers not negative, and no session whose smallest and largest key share a run number while another run lies between) the map a direct reader builds has exactly the written keys and each position leads to the record put under that key. C28_fails_for_enclosed_run: the one-run index format drops run numbers of enclosed runs. With direct access readRunHeader returns the header of the run, or null if there is none (C28_run_header_partial)."
  },
  {
   "property": "C29",
   "status": "partial",
   "theorems": [
    "Props.C29_append_partial",
    "Props.C29_fails_without_record",
    "Props.C29_fails_for_unclosed_file",
    "Props.C29_fails_for_short_file"
   ],
   "note": "Proved for every file made by closing a writer. Fails for files without a random access record at the end: opening for append empties them (C29_fails_without_record for every such file; C29_fails_for_unclosed_file), and for empty files (C29_fails_for_short_file)."
  },
  {
   "property": "C30",
   "status": "partial",
   "theorems": [
    "Props.C30_direct_is_search_partial",
    "Props.C30_fails_for_negative_event",
    "Props.C30_fails_for_run_headers"
   ],
   "note": "For the same files direct readEvent finds the event iff it was written and agrees with the sequential search of a non-direct reader. Fails for enclosed runs (C28_fails_for_enclosed_run) and negative event numbers (C30_fails_for_negative_event). For run headers there is no search: without direct access readRunHeader returns null for every run (C30_fails_for_run_headers)."
  },
  {
   "property": "C31",
   "status": "proved",
   "theorems": [
    "Props.C31_in_order",
    "Props.C31_all_events",
    "Props.C31_all_runs"
   ],
   "note": "Any number of write and append sessions, any sequence of readNextEvent/readNextRunHeader calls; the whole path from the objects to bytes and back is in the model. Behind the end: null once, then an exception."
  },
  {
   "property": "C32",
   "status": "proved",
   "theorems": [
    "Props.C32_concatenation"
   ],
   "note": "Any number of files, including empty ones; results of any sequence of calls are those of the concatenation. After null has been returned the next call throws."
  },
  {
   "property": "C33",
   "status": "partial",
   "theorems": [
    "Props.C33_fails_for_two_listeners",
    "Props.C33_listeners_partial",
    "Props.C33_everything_partial",
    "Props.C33_fails_for_zero"
   ],
   "note": "Holds for one listener, or if restoring relations a second time changes nothing; readStream(n) for n > 0. False with two listeners (relations are restored once per listener, so the second one sees duplicated parents and daughters) and readStream(0) reads one record."
  },
  {
   "property": "C34",
   "status": "partial",
   "theorems": [
    "Props.C34_skip_partial",
    "Props.C34_fails_at_end",
    "Props.C34_fails_across_files"
   ],
   "note": "Holds while n events are left in the file being read. False otherwise: skipNEvents never goes to the next file, and leaves the stream in a failed state without reporting it, so that the next read throws."
  },
  {
   "property": "C35",
   "status": "proved",
   "theorems": [
    "Props.C35_sequential",
    "Props.C35_as_session",
    "Props.C35_file",
    "Props.C35_completes",
    "Props.C35_closed"
   ],
   "note": "Forward simulation over any schedule of any number of threads, each call split into its atomic loads, encoding, compression, taking the mutex and single stream writes inside: the file and event map are those of the sequential writer making the calls in the order in which they took the mutex. C35_file carries this to the closed file as read back, C35_as_session to the exact bytes of a sequential session, C35_completes shows absence of deadlock. Not modelled: levels other than zero or not, failing stream writes (see C115), threads that modify an event while it is written, open and close concurrent with writing. C35_closed: on a writer that is not open every call of every thread throws and nothing changes."
  },
  {
   "property": "C36",
   "status": "proved",
   "theorems": [
    "Props.C36_parameters_round_trip"
   ],
   "note": "Anywhere in a buffer, followed by any writes."
  },
  {
   "property": "C37",
   "status": "proved",
   "theorems": [
    "Props.C37_run_header_round_trip"
   ],
   "note": "All run headers whose strings and counts are below 2^31."
  },
  {
   "property": "C38",
   "status": "partial",
   "theorems": [
    "Props.C38_event_header_round_trip_partial",
    "Props.C38_fails_for_postfix_in_type"
   ],
   "note": "Fails for type names containing the subset postfix; witness C38_fails_for_postfix_in_type."
  },
  {
   "property": "C39",
   "status": "partial",
   "theorems": [
    "Props.C39_fails_for_later_parent",
    "Props.C39_mcparticles_partial",
    "Props.C39_precision_stable",
    "Props.C39_float_exact"
   ],
   "note": "Events whose particles have their parents in the same or an earlier collection; fails for parents in later collections (C39_fails_for_later_parent). Float precision shown to be stable and exact for float values."
  },
  {
   "property": "C40",
   "status": "partial",
   "theorems": [
    "Props.C40_fails_for_later_parent",
    "Props.C40_fails_for_unread_parent",
    "Props.C40_daughters_partial",
    "Props.C40_symmetric_partial"
   ],
   "note": "As C39. Fails for parents in later collections and crashes if the parents are not read (C40_fails_for_later_parent, C40_fails_for_unread_parent)."
  },
  {
   "property": "C41",
   "status": "proved",
   "theorems": [
    "Props.C41_tracker_hits"
   ],
   "note": "All eight classes, all flag words. TrackerHitPlane/ZCylinder objects inside a TrackerHit collection are not modelled."
  },
  {
   "property": "C42",
   "status": "proved",
   "theorems": [
    "Props.C42_calorimeter_hits"
   ],
   "note": "All three classes, all flag words."
  },
  {
   "property": "C43",
   "status": "partial",
   "theorems": [
    "Props.C43_fails_for_two_states",
    "Props.C43_fails_for_missing_weight",
    "Props.C43_tracks_clusters_particles_vertices_partial",
    "Props.C43_pid_order"
   ],
   "note": "Fails for tracks with two states at one location (unreadable file) and clusters with fewer weights than hits (C43_fails_*). PIDs come back in order of likelihood (C43_pid_order)."
  },
  {
   "property": "C44",
   "status": "partial",
   "theorems": [
    "Props.C44_fails_for_different_sizes",
    "Props.C44_fails_for_stale_flag",
    "Props.C44_fails_for_unknown_type",
    "Props.C44_relations_vectors_generic_partial"
   ],
   "note": "Fails for generic objects of fixed but different sizes, stale fixed-size flags, unknown types (C44_fails_*)."
  },
  {
   "property": "C45",
   "status": "partial",
   "theorems": [
    "Props.C45_calls_partial",
    "Props.C45_reader_partial",
    "Props.C45_error",
    "Props.C45_fails_for_second_removal",
    "Props.C45_fails_for_removal",
    "Props.C45_fails_for_null",
    "Props.C45_fails_for_empty",
    "Props.C45_orphan",
    "Props.C45_fails_for_added",
    "Props.C45_files"
   ],
   "note": "Proved: if a reader without lazy unpacking can decode the event record, a lazily unpacked event gives the same answers and contents for every careful sequence of calls, and the lazy reader finds the same event, also in the next of several files (C45_files for files that LCIO wrote, C45_reader_partial for any last file). Partial: removeCollection of a lazy event calls std::remove_if without erase, which leaves a null pointer in the list of blocks: asking for a collection after removing one (even if the removal was refused) or a second removal is undefined behaviour (C45_fails_for_removal, C45_fails_for_second_removal); null pointers in subsets are reported only once (C45_fails_for_null), collections added before unpacking are checked as well (C45_fails_for_added), and a compressed event without collections throws another exception (C45_fails_for_empty). An event record without header is refused by both readers (C45_orphan)."
  },
  {
   "property": "C46",
   "status": "partial",
   "theorems": [
    "Props.C46_map_partial",
    "Props.C46_fails_for_nul"
   ],
   "note": "Partial: names are checked with c_str(), so a name with an embedded NUL is accepted whatever follows it. Collections are addresses; the collections themselves are in C45/C47."
  },
  {
   "property": "C47",
   "status": "partial",
   "theorems": [
    "Props.C47_frozen_partial",
    "Props.C47_runHeader_partial",
    "Props.C47_mode_only",
    "Props.C47_update",
    "Props.C47_fails_for_elements",
    "Props.C47_fails_for_containers",
    "Props.C47_fails_for_event",
    "Props.C47_fails_for_lazy_unpacking"
   ],
   "note": "Proved: every sequence of calls of member functions that look at the access mode throws ReadOnlyException at each call and changes nothing (event, collections, elements, run header). Partial: many setters do not look at it: bit setters of MCParticle, track parameters, track states, particle ids, LCRelation, LCGenericObject, LCFloatVec and so on, setFlag and parameters() of collections, addCollection and parameters() of events (C47_fails_for_elements, C47_fails_for_containers); and with lazy unpacking the elements of a read-only event are not read-only at all (C47_fails_for_lazy_unpacking)."
  },
  {
   "property": "C48",
   "status": "partial",
   "theorems": [
    "Props.C48_maps_partial",
    "Props.C48_read_only",
    "Props.C48_fails_for_empty",
    "Props.C48_fails_for_own_value"
   ],
   "note": "Partial: the single value of a key set to an empty list is read out of bounds, and p.setValue(k, p.getStringVal(k)) copies a destroyed string. getXVals/getXKeys append to the given vector."
  },
  {
   "property": "C49",
   "status": "partial",
   "theorems": [
    "Props.C49_read",
    "Props.C49_layout",
    "Props.C49_assign_partial",
    "Props.C49_reject_partial",
    "Props.C49_fails_above",
    "Props.C49_fails_wide",
    "Props.C49_fails_word",
    "Props.C49_sequence_partial",
    "Props.C49_names"
   ],
   "note": "Proved for unsigned fields of up to 30 bits and signed ones of up to 32. Fails: an unsigned field accepts the number that is one too large (2^width) and stores 0; unsigned fields of 31 bits and signed ones of 33 to 62 bits reject every number; an unsigned field of 32 bits or more, or any field of 63 or 64 bits, is an undefined shift in the constructor."
  },
  {
   "property": "C50",
   "status": "proved",
   "theorems": [
    "Props.C50_describes",
    "Props.C50_reproduces",
    "Props.C50_values",
    "Props.C50_digits"
   ],
   "note": "Also proved: the descriptions of any supported layout construct that layout. valueString lists names and numbers of all fields (C50_values, C50_digits)."
  },
  {
   "property": "C51",
   "status": "partial",
   "theorems": [
    "Props.C51_decodes",
    "Props.C51_order_partial",
    "Props.C51_fails_for_changed_hit",
    "Props.C51_file"
   ],
   "note": "End to end: encode, store the event, load it, decode. Fails: the decoder caches the address of the last hit, so that a hit that has changed, or a new hit at the same address, gives the old cell ID (C51_order_partial has the condition)."
  },
  {
   "property": "C52",
   "status": "partial",
   "theorems": [
    "Props.C52_calendar",
    "Props.C52_negative",
    "Props.C52_from_date_partial",
    "Props.C52_round_trip_partial",
    "Props.C52_order_partial",
    "Props.C52_fails_after_2106",
    "Props.C52_fails_for_nanoseconds",
    "Props.C52_fails_for_wrong_dates",
    "Props.C52_refuses",
    "Props.C52_unix",
    "Props.C52_fails_for_unix_2038",
    "Props.C52_add",
    "Props.C52_text"
   ],
   "note": "The date of any non-negative time stamp is the one reached by counting days from 1970 in the Gregorian calendar, with the time of the day as rest; valid dates before 2^32 s after 1970 (February 2106) give the exact time stamp and come back unchanged, in chronological order; Unix times, additions and the text form are covered. Partial: from February 2106 on the 32-bit sum wraps (C52_fails_after_2106), nanoseconds are lost on the way back (C52_fails_for_nanoseconds), day 0, month 0, 25 o'clock and years beyond 32767 are accepted (C52_fails_for_wrong_dates), unixTime overflows in 2038."
  },
  {
   "property": "C53",
   "status": "proved",
   "theorems": [
    "Props.C53_navigator",
    "Props.C53_symmetric",
    "Props.C53_collection_round_trip"
   ],
   "note": "Proved for every sequence of calls and any addition of the weights: the navigator lists exactly the objects related by the calls, in the order in which they were first related, with the sum of their weights, the same from both sides, and the collection made from it gives the same navigator again up to the order."
  },
  {
   "property": "C54",
   "status": "partial",
   "theorems": [
    "Props.C54_complete",
    "Props.C54_rule",
    "Props.C54_split_partial",
    "Props.C54_keeps_files",
    "Props.C54_fails_for_other_extension",
    "Props.C54_fails_for_second_open"
   ],
   "note": "Proved for a new split writer and names with the extension .slcio: files, names, distribution and what a reader gets back; existing files are never touched, whatever calls are made. Partial: with another extension .?lcio nothing is split (C54_fails_for_other_extension), and a second session with the same split writer cannot be opened after one that needed only one file (C54_fails_for_second_open)."
  },
  {
   "property": "C55",
   "status": "partial",
   "theorems": [
    "Props.C55_algorithms_partial",
    "Props.C55_from_values",
    "Props.C55_fails_for_two_handlers",
    "Props.C55_refused_type",
    "Props.C55_set_particle_id",
    "Props.C55_parameter_index",
    "Props.C55_particle_ids"
   ],
   "note": "Proved for any sequence of additions and of destroying and re-creating the handler, with one handler on the collection at a time: ids distinct, look-ups by name and id inverse, parameter names in order. Partial: two handlers on one collection give equal ids and lose algorithms (C55_fails_for_two_handlers). getParameterIndex gives the place of the name, -1 if there is none (C55_parameter_index). getParticleIDs, getParticleID and setParticleIDUsed select by the id of the algorithm (C55_particle_ids)."
  },
  {
   "property": "C56",
   "status": "partial",
   "theorems": [
    "Props.C56_one_to_one",
    "Props.C56_many_to_many_partial",
    "Props.C56_many_counts_partial",
    "Props.C56_fails_for_self_merge",
    "Props.C56_fails_for_unsorted_merge",
    "Props.C56_one_to_many_partial",
    "Props.C56_fails_for_second_parent",
    "Props.C56_fails_for_wrong_remove"
   ],
   "note": "One to one: proved for all calls with non-null pointers. One to many and many to many: proved for calls without undefined behaviour. Partial: an object added to a second owner stays listed by the first (C56_fails_for_second_parent), removing an object from one that does not list it cuts its relation to the one that does (C56_fails_for_wrong_remove), merge_relations requires lists sorted by address (C56_fails_for_unsorted_merge) and merging an object with itself leaves different multiplicities (C56_fails_for_self_merge)."
  },
  {
   "property": "C57",
   "status": "partial",
   "theorems": [
    "Props.C57_family_partial",
    "Props.C57_twice",
    "Props.C57_fails_for_read_only_parent"
   ],
   "note": "Calls that add daughters and parents to any number of particles, in any order and with refused calls in between, keep the two lists consistent; a parent is never listed twice. Partial: addParent on a particle that may be changed with a parent that is read-only leaves the parent listed without being a daughter (C57_fails_for_read_only_parent), so the theorem asks that parents can be changed when children can."
  },
  {
   "property": "C58",
   "status": "partial",
   "theorems": [
    "Props.C58_unique_partial",
    "Props.C58_fails_for_setLocation",
    "Props.C58_fails_for_assignment"
   ],
   "note": "A track never has two states with the same location as long as states are added with addTrackState and locations are not changed afterwards. Partial: setLocation on a state that is already in the track, and assignment of a track to another one, both create duplicates (C58_fails_for_setLocation, C58_fails_for_assignment)."
  },
  {
   "property": "C59",
   "status": "partial",
   "theorems": [
    "Props.C59_energy",
    "Props.C59_per_particle",
    "Props.C59_sum_partial",
    "Props.C59_fails_by_rounding"
   ],
   "note": "The energy of a hit is the sum in order of the calls, and each particle gets one contribution with the sum of what was added for it, for any addition; with the IEEE addition of floats the total equals the sum of the contributions whenever the sums are exact (all energies, of any sign, multiples of a power of two and the total of their magnitudes below 2^24 times it). Partial: with rounding the two differ (C59_fails_by_rounding)."
  },
  {
   "property": "C60",
   "status": "partial",
   "theorems": [
    "Props.C60_round_trip_partial",
    "Props.C60_fails_to_report_success",
    "Props.C60_fails_for_strings",
    "Props.C60_fails_for_arrays",
    "Props.C60_fails_for_wide_longs",
    "Props.C60_reads_strings",
    "Props.C60_reads_arrays",
    "Props.C60_fails_for_float_arrays",
    "Props.C60_fails_after_error"
   ],
   "note": "Integers and doubles round trip; the reader is correct for well-formed strings and arrays. Partial: every successful write reports a write error, strings and arrays only write their length, longs wider than 32 bits are truncated, readFloatArray goes wrong, an error code is never cleared (one _fails theorem each)."
  },
  {
   "property": "C61",
   "status": "partial",
   "theorems": [
    "Props.C61_flags_partial",
    "Props.C61_bitset_partial",
    "Props.C61_make",
    "Props.C61_fails_for_test"
   ],
   "note": "Partial: testing a bit outside 0..31 with LCFlagImpl::bitSet is an undefined shift, and BitSet32 throws out_of_range; setting and unsetting are ignored as documented."
  },
  {
   "property": "C62",
   "status": "proved",
   "theorems": [
    "Props.C62_collection_heads",
    "Props.C62_types"
   ],
   "note": "For events as in C39."
  },
  {
   "property": "C63",
   "status": "partial",
   "theorems": [
    "Props.C63_destroy_partial",
    "Props.C63_fails_for_two_names",
    "Props.C63_fails_for_removed"
   ],
   "note": "Partial: a collection added under two names is deleted twice, and a removed collection is never deleted although removeCollection is documented to delete it."
  },
  {
   "property": "C64",
   "status": "partial",
   "theorems": [
    "Props.C64_mCParticle_partial",
    "Props.C64_simCalHit",
    "Props.C64_calHit",
    "Props.C64_rawCalHit",
    "Props.C64_simTrackerHit",
    "Props.C64_trackerHit",
    "Props.C64_trackerHitPlane",
    "Props.C64_trackerHitZCylinder",
    "Props.C64_trackerRawData",
    "Props.C64_trackerData",
    "Props.C64_trackerPulse",
    "Props.C64_tPCHit",
    "Props.C64_trackState",
    "Props.C64_cluster_partial",
    "Props.C64_pid",
    "Props.C64_recoParticle",
    "Props.C64_vertex",
    "Props.C64_relation",
    "Props.C64_runHeader",
    "Props.C64_eventHeader_partial",
    "Props.C64_colObj",
    "Props.C64_track_partial",
    "Props.C64_generic_int_partial",
    "Props.C64_generic_float_partial",
    "Props.C64_generic_double_partial",
    "Props.C64_endpoint",
    "Props.C64_fails_for_endpoint",
    "Props.C64_cluster_addHit",
    "Props.C64_fails_for_shape",
    "Props.C64_fails_for_own_values",
    "Props.C64_fails_for_track_states",
    "Props.C64_fails_for_bits",
    "Props.C64_fails_for_short_vectors",
    "Props.C64_fails_for_index",
    "Props.C64_weight_partial",
    "Props.C64_fails_for_weight"
   ],
   "note": "Proved for all setters and getters of 22 classes, one theorem per class. Partial: ClusterImpl::setShape appends, track parameters throw with several track states, a weight of zero is read back as one, the end point of an MCParticle is lost after setSimulatorStatus, quality bits outside 0..31, short covariance vectors and indices outside of a fixed generic object are undefined behaviour, setChargeValues with the object's own values loses them (C64_fails_*)."
  },
  {
   "property": "C65",
   "status": "partial",
   "theorems": [
    "Props.C65_crash_partial",
    "Props.C65_earlier_partial",
    "Props.C65_fails_in_file_record"
   ],
   "note": "Proved for every crash point after the bytes of the old file (C65_crash_partial; every crash point if the file is new), and for every crash point that data of earlier sessions are still returned first (C65_earlier_partial). Fails inside the last 136 bytes of an old file, which a session that appends overwrites: a run header that was never written can be returned (C65_fails_in_file_record). Not modelled: operating systems that store the bytes in another order."
  },
  {
   "property": "C66",
   "status": "partial",
   "theorems": [
    "Props.C66_unclosed_partial",
    "Props.C66_fails_for_events",
    "Props.C66_fails_for_short_file",
    "Props.C66_fails_for_compressed"
   ],
   "note": "False in general: the recovery looks for a header and then reads the record after it, so that only what directly follows a run header is found. C66_unclosed_partial says exactly what is found and that it is read correctly. C66_fails_for_events: in every file with events only nothing is found. Files shorter than 136 bytes and compressed run headers make opening fail (C66_fails_for_short_file, C66_fails_for_compressed)."
  },
  {
   "property": "C67",
   "status": "partial",
   "theorems": [
    "Props.C67_copy_partial",
    "Props.C67_fails_for_null_vertex",
    "Props.C67_fails_without_type_name",
    "Props.C67_generations_partial"
   ],
   "note": "C67_copy_partial: for all storable events whose vertex subsets consist of vertices of the event and whose generic objects have type names. The order of particle ids is kept if the likelihoods are strictly descending (otherwise equal likelihoods may change places, std::sort). Assumed of the standard library: sort sorts, conversion to float and back is idempotent (proved for IEEE). Fails for null pointers in vertex subsets (C67_fails_for_null_vertex: undefined behaviour) and for generic objects with empty type names (C67_fails_without_type_name). Not covered: subsets of generic objects, NaN likelihoods. C67_generations_partial: the same for copies of copies, any number of times."
  },
  {
   "property": "C68",
   "status": "partial",
   "theorems": [
    "Props.C68_events_in_order_partial",
    "Props.C68_fails_for_cyclic_tables",
    "Props.C68_fails_to_notice_bad_pointers",
    "Props.C68_fails_to_reject_other_records",
    "Props.C68_fails_for_runs_after_events",
    "Props.C68_fails_on_truncated_files"
   ],
   "note": "C68_events_in_order_partial: all files whose tables end. Fails for cycles of empty tables (never returns, for every number of steps), pointers -1 (the event before is returned for ever, without an error), records that are no events (taken for events: the error code is overwritten), events followed by a run block in their record (dropped), files that are cut off (null pointers are dereferenced)."
  },
  {
   "property": "C69",
   "status": "partial",
   "theorems": [
    "Props.C69_collections_partial",
    "Props.C69_fails_for_missing_weights",
    "Props.C69_fails_for_many_particles",
    "Props.C69_fails_for_wrong_numbers"
   ],
   "note": "C69_collections_partial: events whose numbers of particles, taken modulo 10000 as the program does, are in the event. Weight and process number of an event without them are those of the event before (C69_fails_for_missing_weights); events with more than 9999 particles get wrong relations (C69_fails_for_many_particles); daughters outside the event and entries 94 without a mother are undefined behaviour (C69_fails_for_wrong_numbers). Conversions to float and the division by the speed of light are parameters of the model."
  },
  {
   "property": "C70",
   "status": "partial",
   "theorems": [
    "Props.C70_antiparticles",
    "Props.C70_mesons",
    "Props.C70_baryons",
    "Props.C70_diquarks",
    "Props.C70_elementary",
    "Props.C70_exceptional",
    "Props.C70_without_spin",
    "Props.C70_defined",
    "Props.C70_fails_for_nuclei",
    "Props.C70_fails_for_gluino_hadrons"
   ],
   "note": "Codes for which the table is left are characterised exactly (C70_defined). Nuclei are neutral (C70_fails_for_nuclei), hadrons of gluinos get fractional charges (C70_fails_for_gluino_hadrons)."
  },
  {
   "property": "C71",
   "status": "partial",
   "theorems": [
    "Props.C71_merge_partial",
    "Props.C71_fix_partial"
   ],
   "note": "C71_merge_partial for lcio_merge_files with any number of files (also empty ones), C71_fix_partial for copyfix and files whose writer crashed at any byte behind what the file had before. Partial because of the restrictions of C67 on the events, and of C65 on the crash. Run headers must also fit with the parameter LCIOFileName, which the reader adds or overwrites; compression must work for data up to the length of the records."
  },
  {
   "property": "C72",
   "status": "partial",
   "theorems": [
    "Props.C72_flags",
    "Props.C72_process_partial",
    "Props.C72_fails_exotic",
    "Props.C72_fails_gluons",
    "Props.C72_fails_two_higgs",
    "Props.C72_fails_stable",
    "Props.C72_fails_cycle",
    "Props.C72_fails_order",
    "Props.C72_fails_second_beam"
   ],
   "note": "C72_flags is complete. C72_process_partial: events as generators write them (particles without parents first, one particle made by the beams), with at most one Higgs boson that decays. Flags for decays to gluons and for other decays are never set (the table has no entry for gluons, and the other flag is not used), the one for exotic particles is set for decays of the Higgs boson only; two Higgs bosons give one decay only; Higgs bosons without daughters are undefined behaviour and cyclic ones an endless loop; particles of the second beam are not looked at (one _fails theorem each)."
  },
  {
   "property": "C73",
   "status": "partial",
   "theorems": [
    "Props.C73_to_partial",
    "Props.C73_from",
    "Props.C73_round_trip_partial",
    "Props.C73_fails_too_many",
    "Props.C73_fails_mother_outside",
    "Props.C73_fails_gap",
    "Props.C73_fails_daughters",
    "Props.C73_fails_wrong_mothers",
    "Props.C73_fails_name"
   ],
   "note": "C73_from is complete. C73_to_partial and C73_round_trip_partial: up to 4000 particles, parents in the collection, and for the round trip consecutive in it. Fails: more particles are written behind the arrays for every such event, parents outside of the collection are read before their array, mothers behind the last entry make fromHepEvt use elements behind the end of the collection, gaps between parents are filled, other names of the collection make fromHepEvt throw (one _fails theorem each)."
  },
  {
   "property": "C74",
   "status": "partial",
   "theorems": [
    "Props.C74_reading_partial",
    "Props.C74_fails_for_record_header",
    "Props.C74_fails_for_unknown_type",
    "Props.C74_fails_for_overlong_vector",
    "Props.C74_fails_for_lost_parent",
    "Props.C74_fails_for_old_particles",
    "Props.C74_fails_for_lost_access"
   ],
   "note": "C74_reading_partial: for files without the faults listed in Spec.Danger. Fails for each of them that no other property covers: record headers that are too long (also C20), collections of unknown type, reconstructed particles in the format of version 1.2 or older (whose MCParticles are read into a single variable), vectors of 4 GiB, particles whose parent is not there, and a missing access record (one _fails theorem each). Not covered: opening other files with the same reader, two blocks of the same name in a record, running out of memory because of large lengths."
  },
  {
   "property": "C75",
   "status": "partial",
   "theorems": [
    "Props.C75_reading_partial",
    "Props.C75_fails_for_zero_record",
    "Props.C75_fails_for_cycle"
   ],
   "note": "C75_reading_partial: for files without records of length zero, blocks of length zero (C13) and cycles of access records. Fails for records of length zero and for cycles, for every number of steps."
  },
  {
   "property": "C76",
   "status": "partial",
   "theorems": [
    "Props.C76_event_partial",
    "Props.C76_event_header",
    "Props.C76_run_header",
    "Props.C76_random_access",
    "Props.C76_index_partial",
    "Props.C76_fails_for_plain_hits",
    "Props.C76_fails_for_fixed_subset",
    "Props.C76_fails_for_primary",
    "Props.C76_fails_for_far_index"
   ],
   "note": "Run headers, event headers and random access records are complete. C76_event_partial: for collections on which document and code agree (Spec.Described); that the primary flag of vertices is written in the first of four bytes is a part of docWritten. C76_index_partial: for files below 2 GiB. Fails: calorimeter hits with bit 28, subsets of generic objects of fixed size, the primary flag of vertices, and the index of larger files, for which the condition in the document is never true (one _fails theorem each)."
  },
  {
   "property": "C77",
   "status": "partial",
   "theorems": [
    "Props.C77_event_partial",
    "Props.C77_run_header",
    "Props.C77_event_header",
    "Props.C77_fails_for_first_version",
    "Props.C77_fails_for_length",
    "Props.C77_fails_for_plain_hits",
    "Props.C77_fails_for_planes",
    "Props.C77_fails_for_old_particles",
    "Props.C77_fails_for_versions_between"
   ],
   "note": "Run headers and event headers are complete. C77_event_partial: for collections on which document and code agree (Spec.docAgrees). Fails: MCParticles in files of version 0.8, contributions with bit 28 up to version 2.10, calorimeter hits with bit 28, planar and cylindrical hits up to version 1.11, reconstructed particles up to version 1.2, tracks in versions between 1.99 and 2.0 (one _fails theorem each). Daughters are restored from parents in C40, not here. Random access records and the index of old versions: only the current one (C25, C26)."
  },
  {
   "property": "C78",
   "status": "proved",
   "theorems": [
    "Props.C78_buffer"
   ],
   "note": ""
  },
  {
   "property": "C79",
   "status": "partial",
   "theorems": [
    "Props.C79_collections_partial",
    "Props.C79_all_mothers_partial",
    "Props.C79_fails_for_first_particle",
    "Props.C79_fails_for_other_mothers",
    "Props.C79_fails_for_wrong_mothers"
   ],
   "note": "C79_collections_partial, C79_all_mothers_partial: mother numbers of particles of the event, and mothers the code does not overlook. Fails: the first particle as only mother is ignored (`mom1 > 0` where it is 0), second mothers in descending order or negative are ignored, numbers of no particle are used unchecked. The rest of LCStdHepRdrNew.cc is the text of LCStdHepRdr.cc."
  },
  {
   "property": "C80",
   "status": "partial",
   "theorems": [
    "Props.C80_constant",
    "Props.C80_set",
    "Props.C80_indices_partial",
    "Props.C80_fails_for_other_fields",
    "Props.C80_fails_for_no_description"
   ],
   "note": "C80_constant and C80_set are complete. C80_indices_partial: encodings of five fields. Fails: with other fields in front the indices are wrong although the text is accepted; texts that are no descriptions of fields are accepted and throw when used."
  },
  {
   "property": "C81",
   "status": "partial",
   "theorems": [
    "Props.C81_reads",
    "Props.C81_one_map_partial",
    "Props.C81_fails_for_two_handles"
   ],
   "note": "C81_reads is complete. C81_one_map_partial: handles one after the other. Fails: of two handles at the same time, the one that goes out of scope first loses its changes."
  },
  {
   "property": "C82",
   "status": "partial",
   "theorems": [
    "Props.C82_iterates_partial",
    "Props.C82_loops_partial",
    "Props.C82_checks_first",
    "Props.C82_typed_vector",
    "Props.C82_missing",
    "Props.C82_fails_for_null",
    "Props.C82_fails_for_other_types",
    "Props.C82_fails_for_removed",
    "Props.C82_fails_for_many"
   ],
   "note": "C82_typed_vector, C82_checks_first and C82_missing are complete below 2^31 elements. C82_iterates_partial and C82_loops_partial: elements not null and all of the type. Fails: loops end at null elements, elements of another type and elements removed meanwhile are undefined behaviour, from 2^31 elements on none is returned."
  },
  {
   "property": "C83",
   "status": "partial",
   "theorems": [
    "Props.C83_printed_partial",
    "Props.C83_registers_partial",
    "Props.C83_end_partial",
    "Props.C83_fails_if_called_first"
   ],
   "note": "Partial: histories in which no warning is called for before it is registered. Fails: calling for an unregistered warning makes an empty entry, so that it cannot be registered any more."
  },
  {
   "property": "C84",
   "status": "partial",
   "theorems": [
    "Props.C84_keeps_partial",
    "Props.C84_fails_for_unclosed",
    "Props.C84_fails_with_force",
    "Props.C84_fails_without_file"
   ],
   "note": "C84_keeps_partial: files that were closed after each session of writing, missing files and files of less than 136 bytes are not changed. Fails for the files the program is made for: everything in a file that was not closed is lost, since SIOWriter::open(append) empties files whose records for direct access had to be made anew; with -f all events of closed files are lost; with -f a missing file is undefined behaviour (fopen is not checked)."
  },
  {
   "property": "C85",
   "status": "partial",
   "theorems": [
    "Props.C85_numbers_partial",
    "Props.C85_fails_position_lost",
    "Props.C85_fails_at_end",
    "Props.C85_fails_same_numbers",
    "Props.C85_all_events",
    "Props.C85_fails_more_files",
    "Props.C85_program_partial"
   ],
   "note": "Files below 2 GiB that were closed, with lossless indices (C25) and event numbers that are not negative. Fails: without direct access reading starts again from the beginning; after the end of the file the call throws, and then returns 0; events with the same numbers count once; of several files only the current one counts. lcio_event_counter prints the sum for LCIO files (for StdHep files it takes a number of the header minus 1, which is a parameter here)."
  },
  {
   "property": "C86",
   "status": "partial",
   "theorems": [
    "Props.C86_lists",
    "Props.C86_fails_file_name",
    "Props.C86_events_partial",
    "Props.C86_fails_continues",
    "Props.C86_fails_closed",
    "Props.C86_fails_direct",
    "Props.C86_fails_not_closed"
   ],
   "note": "C86_lists is complete (well-formed files, any state of the reader before). C86_events_partial: events after single files. Fails: open(filename) keeps the list of names of the first use, so that run headers get the name of the first file, and after a list of files reading goes on with the second file of that list; a closed reader still reads; direct access is lost by close; without close the event maps of two files are mixed."
  },
  {
   "property": "C87",
   "status": "partial",
   "theorems": [
    "Props.C87_events_partial",
    "Props.C87_fails_after_exception",
    "Props.C87_fails_at_end"
   ],
   "note": "C87_events_partial: any history in which no call that reads throws while there is an object of its kind. Fails: after an exception of readNextEvent or readEvent the next such call deletes the event before a second time (undefined behaviour); the last event and run header are never deleted, as the destructor does nothing."
  },
  {
   "property": "C88",
   "status": "partial",
   "theorems": [
    "Props.C88_registered",
    "Props.C88_fails_not_registered",
    "Props.C88_everyone_partial",
    "Props.C88_each_event_once",
    "Props.C88_fails_order",
    "Props.C88_fails_removes_itself",
    "Props.C88_fails_removes_itself_early",
    "Props.C88_changes_at_once"
   ],
   "note": "C88_everyone_partial: listeners that do not register, remove or throw. C88_changes_at_once: what happens when the first listener changes who is registered. Fails: listeners are called in the order of their addresses; a listener that removes itself, or removing one that is not registered, is undefined behaviour."
  },
  {
   "property": "C89",
   "status": "partial",
   "theorems": [
    "Props.C89_split_partial"
   ],
   "note": "C89_split_partial: things that can be written again (as C71) and output names ending with .slcio (for others see C54)."
  },
  {
   "property": "C90",
   "status": "partial",
   "theorems": [
    "Props.C90_order",
    "Props.C90_can_finish",
    "Props.C90_ends",
    "Props.C90_fails_no_tasks",
    "Props.C90_fails_negative",
    "Props.C90_files_partial"
   ],
   "note": "C90_order, C90_can_finish and C90_ends are complete for at least one task. C90_files_partial: files made by LCIO whose contents can be loaded. Fails: if hardware_concurrency() is 0 the program never ends; a negative LCIO_MAX_THREADS gives up to 4294967295 tasks, as the test for this is done on an unsigned number."
  },
  {
   "property": "C91",
   "status": "partial",
   "theorems": [
    "Props.C91_uses_partial",
    "Props.C91_fails_stuck",
    "Props.C91_fails_no_records",
    "Props.C91_fails_closed_twice"
   ],
   "note": "C91_uses_partial: files are opened only when none is open, the compression level is set only then, and MT::LCWriter is closed only when a file is open. Fails: opening another file throws, but then SIOWriter can neither write nor be closed nor opened again, and MT::LCWriter closes without writing the records for direct access; MT::LCWriter closed twice, or before it was opened, dereferences a null pointer. Setting the compression level while a file is open is not covered by the theorem."
  },
  {
   "property": "C92",
   "status": "partial",
   "theorems": [
    "Props.C92_values_partial",
    "Props.C92_fails_shared",
    "Props.C92_fails_lost",
    "Props.C92_fails_appended",
    "Props.C92_fails_self",
    "Props.C92_fails_locked",
    "Props.C92_ids_partial",
    "Props.C92_fails_same_id",
    "Props.C92_fails_ids_repeat"
   ],
   "note": "C92_values_partial: objects that own others (particle ids, contributions, raw data, elements) are copied and assigned only while they own none, and only while they can be changed; tracks can be copied in any case and assigned to empty tracks. C92_ids_partial: only tracks are copied or assigned, fewer than 2^32 objects. Fails: copies of clusters, reconstructed particles, simulated hits, TPC hits and collections share what they own, which is deleted twice; assignment to them loses what they owned; assignment to a track adds to its contents, to itself is undefined or never ends; copies of read-only objects are read-only and have the same id(); read-only objects can be assigned to."
  },
  {
   "property": "C93",
   "status": "partial",
   "theorems": [
    "Props.C93_values",
    "Props.C93_stored_partial",
    "Props.C93_description_partial",
    "Props.C93_fails_doubles",
    "Props.C93_fails_outside",
    "Props.C93_loaded",
    "Props.C93_fails_copied"
   ],
   "note": "C93_stored_partial inherits the condition of C44 that all objects of a collection have the same sizes. C93_description_partial: integers and floats of EventSummary. Fails: EventSummary has no doubles but stores 15 with each object, because ESD is declared as the enumeration of the floats; values that the class does not have can be set and read, which is undefined; copies of objects that made their data share it, and it is deleted twice."
  },
  {
   "property": "C94",
   "status": "partial",
   "theorems": [
    "Props.C94_arrays_partial",
    "Props.C94_values_partial",
    "Props.C94_fails_count",
    "Props.C94_fails_no_room",
    "Props.C94_strings_partial",
    "Props.C94_fails_long_strings",
    "Props.C94_fails_long_string",
    "Props.C94_fails_zero_bytes",
    "Props.C94_run_headers_partial",
    "Props.C94_fails_at_end",
    "Props.C94_fails_subdetectors",
    "Props.C94_indices_partial",
    "Props.C94_fails_parents",
    "Props.C94_fails_remove",
    "Props.C94_fails_range",
    "Props.C94_parameters_partial",
    "Props.C94_fails_one_kind",
    "Props.C94_fails_string_keys"
   ],
   "note": "The arrays of the program must be as large as it says, the strings must fit and have no zero bytes. Fails: the number of parameters of vertices and particle ids and of weights of clusters is one too large, and with size 0 they are written behind the array; strings that are too long run into each other or behind the array; run headers are used at the end of the file, where there is none, and the room for subdetectors is not checked; parents, positions and momenta of simulated tracker hits and elements to be removed are counted from zero; the range of calorimeter hits is not checked; no kind of vector can be used both for setting and getting parameters; the keys of string parameters are got with a misspelled name only."
  },
  {
   "property": "C95",
   "status": "partial",
   "theorems": [
    "Props.C95_result_partial",
    "Props.C95_fails_start",
    "Props.C95_fails_empty",
    "Props.C95_fails_damaged"
   ],
   "note": "The start event must be in the first file: otherwise the program is ended by an exception (`C95_fails_start`). Averages only of numbers that are exact as `float`. Fails: an empty collection does not fail with --pedantic; an exception while reading a damaged file is taken for its end, so that the program can succeed."
  },
  {
   "property": "C96",
   "status": "proved",
   "theorems": [
    "Props.C96_output",
    "Props.C96_never_mixed",
    "Props.C96_exceptions",
    "Props.C96_goes_on",
    "Props.C96_ends",
    "Props.C96_files",
    "Props.C96_missing_file"
   ],
   "note": "A file that cannot be opened, or is damaged, ends the program with its exception, also if other files have not been printed (`C96_missing_file`), as stated."
  },
  {
   "property": "C97",
   "status": "partial",
   "theorems": [
    "Props.C97_status",
    "Props.C97_quality",
    "Props.C97_events_partial",
    "Props.C97_fails_long_names",
    "Props.C97_parameters_partial",
    "Props.C97_fails_commas",
    "Props.C97_family_readable",
    "Props.C97_particles_partial",
    "Props.C97_columns",
    "Props.C97_fails_lost_parent",
    "Props.C97_fails_twice",
    "Props.C97_daughters_partial",
    "Props.C97_fails_status",
    "Props.C97_fails_loop",
    "Props.C97_fails_number_of_floats",
    "Props.C97_fails_numbers_of_objects"
   ],
   "note": "Numbers in floating point are printed by functions that are parameters (different numbers can look the same). Fails: names of collections of 30 or more characters, names or values with separators such as commas (`C97_fails_long_names`, `C97_fails_commas`), parents that are not in the collection are shown as the first particle, a particle that is in it twice; the list of descendants shows the status and the end of the mother (`C97_fails_status`) and does not end for loops (`C97_fails_loop`). The details of user objects with the operators of Operators.cc do not show the number of float values (`C97_fails_number_of_floats`), those of simulated calorimeter hits print the number of the hit behind the flag of the collection, and those of reconstructed particles print a decimal number as hexadecimal (`C97_fails_numbers_of_objects`)."
  },
  {
   "property": "C98",
   "status": "partial",
   "theorems": [
    "Props.C98_stdhepjob_partial",
    "Props.C98_stdhepjob_new_partial",
    "Props.C98_existing_output",
    "Props.C98_fails_for_wrong_numbers"
   ],
   "note": "`C98_stdhepjob_partial`, `C98_stdhepjob_new_partial`, `C98_existing_output`. Partial: events that are not usable (see C69, C79; `C98_fails_for_wrong_numbers`) and those with 10000 particles or more. Daughters come in the order of the collection, not in that of the StdHep event, and events without weight get that of the event before (C69)."
  },
  {
   "property": "C99",
   "status": "partial",
   "theorems": [
    "Props.C99_events",
    "Props.C99_typed_vector",
    "Props.C99_fails_for_classes_of_pointers"
   ],
   "note": "Proved for all bytes of files; hypotheses are that the codec throws exceptions and keeps to its buffer, that std::sort gives a permutation, and that no event record of the files has two blocks of the same name (then the second replaces the elements of the collection, which is not modelled). Fails for the classes of objects that pointers lead to: in a file that was not written by LCIO, or is damaged, a hit of a track can be an MCParticle."
  },
  {
   "property": "C100",
   "status": "partial",
   "theorems": [
    "Props.C100_typename_partial",
    "Props.C100_usable",
    "Props.C100_collections_partial",
    "Props.C100_fails_for_three_classes"
   ],
   "note": "Proved for all classes but three: lctypename gives \"TrackerHit\" for TrackerHitPlane and TrackerHitZCylinder, because the base class is tried first, and \"UNKNOWN\" for TPCHit. A null pointer, for which \"UNKNOWN\" is returned, is not modelled."
  },
  {
   "property": "C101",
   "status": "partial",
   "theorems": [
    "Props.C101_nth_partial",
    "Props.C101_fails_beyond",
    "Props.C101_fails_without_file",
    "Props.C101_direct_partial",
    "Props.C101_collections",
    "Props.C101_usage"
   ],
   "note": "Proved for the n-th event up to one behind the last, and for run and event numbers that are not negative. False beyond: skipping past the end leaves the stream in a failed state, and the exception that reading throws then is not an IOException, so that the program is ended by it (C101_fails_beyond); the same for a file that is not there (C101_fails_without_file). The text of dumpEventDetailed is not modelled."
  },
  {
   "property": "C102",
   "status": "partial",
   "theorems": [
    "Props.C102_partial",
    "Props.C102_reader_partial",
    "Props.C102_fails_for_null_elements",
    "Props.C102_fails_for_missing_particles",
    "Props.C102_fails_for_few_parameters",
    "Props.C102_fails_for_bad_encoding",
    "Props.C102_fails_after_reading_a_subset",
    "Props.C102_fails_after_reading_jets"
   ],
   "note": "Partial. C102_partial and C102_reader_partial: events that a reader gives and that are Printable (pointers lead to objects of the right class, particles of particles are there, encodings are valid, particle ids fit their algorithms) are printed. It fails for null pointers in subset collections (only with LCIO_IGNORE_NULL_IN_SUBSET_COLLECTIONS), for jets whose particles were not read (C102_fails_after_reading_jets: the pointers getParticles()[l] are the only ones that are not checked), for particle ids of clusters with fewer parameters than names, and for invalid encodings, whose exception is not caught. Each is proved in general and shown for an event; two of them after reading a file."
  },
  {
   "property": "C103",
   "status": "partial",
   "theorems": [
    "Props.C103_first_partial",
    "Props.C103_fails_for_others"
   ],
   "note": "Partial, because it is false: the header is in a static variable that is set once. C103_first_partial: the first collection a program prints has its own description. C103_fails_for_others: all others have that of the first."
  },
  {
   "property": "C104",
   "status": "partial",
   "theorems": [
    "Props.C104_partial",
    "Props.C104_error",
    "Props.C104_records",
    "Props.C104_fails_for_large_sums",
    "Props.C104_fails_for_invalid",
    "Props.C104_dump",
    "Props.C104_fails_for_dump_limit",
    "Props.C104_fails_for_dump_without_split"
   ],
   "note": "Proved for all calls in which start + count does not wrap around 2^64 (C104_partial), which holds for all calls made while records are read (C104_records). Otherwise the check passes and at reads behind the memory (C104_fails_for_large_sums). dump prints max_bytes + 2 bytes (C104_fails_for_dump_limit) and divides by zero for line_split 0; a part of an invalid view is valid. The base of the printed numbers is not modelled."
  },
  {
   "property": "C105",
   "status": "partial",
   "theorems": [
    "Props.C105_partial",
    "Props.C105_fails_same_numbers",
    "Props.C105_fails_missing_file"
   ],
   "note": "C105_partial: files below 2 GiB that were closed, with lossless indices and event numbers that are not negative (C25, C85). Fails: the number of events of a file is too small if events have the same numbers (C105_fails_same_numbers); if a file does not exist the program is ended by the exception, before anything of the others is shown (C105_fails_missing_file). The texts of dumpRunHeader and dumpEvent are not in this model (see C97)."
  },
  {
   "property": "C106",
   "status": "partial",
   "theorems": [
    "Props.C106_partial",
    "Props.C106_fails_without_states",
    "Props.C106_fails_for_nan"
   ],
   "note": "C106_partial: tracks with at least one state, if all distances as they are computed are numbers; of these the first of the smallest is found. Fails: undefined behaviour for tracks without states (C106_fails_without_states); if the distance of the first state is not a number it is returned, however close the others are (C106_fails_for_nan). Rounding: computed distances are compared, so states at different distances whose computed squares are equal (or overflow) count as equally close."
  },
  {
   "property": "C107",
   "status": "partial",
   "theorems": [
    "Props.C107_partial",
    "Props.C107_stages_partial"
   ],
   "note": "C107_partial: a file is split and the parts are merged. C107_stages_partial: files are merged in groups and the results are merged; the new file gives the same as the files, and so does the file made from all of them at once. The restrictions are those of C71 and C89, and run headers must be writable with the names of the parts (groups) in their parameter LCIOFileName, which is the only difference to the original."
  },
  {
   "property": "C108",
   "status": "partial",
   "theorems": [
    "Props.C108_fields",
    "Props.C108_decodes",
    "Props.C108_further",
    "Props.C108_fails_for_empty",
    "Props.C108_fails_for_repeated_name"
   ],
   "note": "C108_fields, C108_decodes and C108_further hold for all further fields. Two things are false of the code: with an empty text the constructor throws after it has changed the encoding of the collection (C108_fails_for_empty), and a further field with the name of a canonical one hides it when asked by name (C108_fails_for_repeated_name)."
  },
  {
   "property": "C109",
   "status": "partial",
   "theorems": [
    "Props.C109_event_headers_partial",
    "Props.C109_fails_time_stamps",
    "Props.C109_tracker_hits",
    "Props.C109_calorimeter_hits_partial",
    "Props.C109_fails_energies",
    "Props.C109_particles_partial",
    "Props.C109_fails_status",
    "Props.C109_fails_momenta"
   ],
   "note": "C109_event_headers_partial: names without zero bytes that fit. C109_calorimeter_hits_partial: the energy is the given one plus those of the contributions. C109_particles_partial: without lcmcpsetendpoint, no signalling NaNs. Fails: time stamps are cut to 32 bits, so that those in nanoseconds are lost; the energies of contributions are added to the energy that was given; setting the endpoint changes the simulator status; momenta and masses stored by other programs in double precision are rounded."
  },
  {
   "property": "C110",
   "status": "partial",
   "theorems": [
    "Props.C110_extended_partial",
    "Props.C110_fails_added_daughter"
   ],
   "note": "Partial: the restrictions of C67. When a daughter is added to a particle that was there, in a collection whose name comes before the one of its parent, other particles that were not changed lose their daughters (`C110_fails_added_daughter`)."
  },
  {
   "property": "C111",
   "status": "partial",
   "theorems": [
    "Props.C111_session_partial",
    "Props.C111_fails_second_file",
    "Props.C111_fails_no_header",
    "Props.C111_fails_large",
    "Props.C111_fails_blank",
    "Props.C111_fails_missing_file",
    "Props.C111_slashes"
   ],
   "note": "Fails for the number of events after a second file was opened (it is never reset), for files opened after a large one (events are not counted any more), for runs without header (not listed), for lines without words and commands without argument (undefined behaviour), and for files that do not exist (the exception is not caught). Dumped run headers can have the name of another file as parameter, as in C86. Signals, paging and the layout in columns are not modelled. C111_slashes: slashes at the beginning or the end of a path and doubled ones mean nothing."
  },
  {
   "property": "C112",
   "status": "proved",
   "theorems": [
    "Props.C112_full_disk"
   ],
   "note": "C112_full_disk: what close throws is an I/O failure or a bad state, never undefined behaviour; also what happens then: after the first exception the writer is lost (if anything was written, close throws each time it is called and leaves the stream open, so that no other file can be opened). If not even the first record fits, the call that writes it throws, but close returns normally. The disk is modelled as a limit on the length of the file; it stays full, and bytes that are in the file can be overwritten."
  },
  {
   "property": "C113",
   "status": "partial",
   "theorems": [
    "Props.C113_steady_partial",
    "Props.C113_tidy_partial",
    "Props.C113_programs_partial",
    "Props.C113_fails_ids",
    "Props.C113_fails_numbers",
    "Props.C113_fails_floats"
   ],
   "note": "Fails: after the details of an event (filled on the right, number 12 of an object printed as 12000000), after the line of a flag word (hexadecimal numbers), after the line of a calorimeter hit or a track state (precision, notation, sign). Proved for operators that set all they use, after anything, and for all operators after those that reset the format or leave it alone. Floating point numbers are printed by functions of the format that are parameters. Operators for tracker hits, tracks, clusters, reconstructed particles, simulated hits and the details of calorimeter hits, particles and vertices are not in this model."
  },
  {
   "property": "C114",
   "status": "partial",
   "theorems": [
    "Props.C114_records",
    "Props.C114_blocks",
    "Props.C114_fails_truncated"
   ],
   "note": "The codec is lossless and succeeds, as in C16. If more records are to be skipped than exist, nothing is printed, not even the titles. Fails for files that were cut: a record whose data are missing is listed as if it were there, without an exception (`C114_fails_truncated`)."
  },
  {
   "property": "C115",
   "status": "proved",
   "theorems": [
    "Props.C115_order",
    "Props.C115_file",
    "Props.C115_completes"
   ],
   "note": "C115_order: at any time, for any open file. C115_file: a new file after close, with the reader and with what close throws: an I/O failure if it is the records it writes that do not fit, a bad state if a call was stopped before. C115_completes: no deadlock. As for the writer for one thread, if not even the first record fits, its call throws, but close returns normally. C115_file takes the compression as constant (zero or not); C115_order does not. Opening and closing concurrently with writing is not modelled."
  },
  {
   "property": "C116",
   "status": "partial",
   "theorems": [
    "Props.C116_writing_partial",
    "Props.C116_reading",
    "Props.C116_fails_after_end",
    "Props.C116_fails_last_run_header",
    "Props.C116_fails_cut_file",
    "Props.C116_fails_write_run_header"
   ],
   "note": "C116_writing_partial: lcwrtopen, lcwrtwriterunheader, lcwrtwriteevent, lcwrtclose; if nothing at all fits, lcwrtclose returns LCIO_SUCCESS (the writing functions do not). C116_reading: files that were closed. Fails: lcrdrreadnextevent and lcrdrreadnextrunheader do not catch exceptions, so that a file that was cut off ends the program, and so does one more call after 0 was returned; lcreadnextrunheader uses the null pointer after the last run header; lcwriterunheader does not catch the exceptions of the SIO library, so that a full disk ends the program. Not modelled: lcrdropenchain, and giving other pointers than the right ones."
  },
  {
   "property": "C117",
   "status": "partial",
   "theorems": [
    "Props.C117_lists_partial",
    "Props.C117_fails_last_removed",
    "Props.C117_fails_removing_in_loop",
    "Props.C117_fails_removing_the_only_one",
    "Props.C117_copied_list"
   ],
   "note": "C117_lists_partial: if the last relation shown is never removed. C117_copied_list: removing through a copy of the list. Fails: removing the last relation of an object deletes the list, and every later use is undefined (C117_fails_last_removed, for all histories); a loop that removes what it finds in the list leaves every second relation (C117_fails_removing_in_loop) and is undefined if there is only one (C117_fails_removing_the_only_one). The documentation of the getters does not say how long the references may be used. In the model memory is not used again; in the program the list could then also show something else."
  },
  {
   "property": "C118",
   "status": "partial",
   "theorems": [
    "Props.C118_each_once_partial",
    "Props.C118_looking_partial",
    "Props.C118_removes_selected",
    "Props.C118_fails_asking"
   ],
   "note": "C118_each_once_partial: if the program does not ask for the names again. C118_looking_partial: if it adds and removes nothing. C118_removes_selected: removing. Fails: if it removes each collection and something asks for the names (writing and printing the event do), every second collection is left (C118_fails_asking). Loops with iterators are not modelled; they are undefined whenever someone asks for the names. That includes getCollection for events that are unpacked only when used (C45), whose first call asks for the names."
  },
  {
   "property": "C119",
   "status": "partial",
   "theorems": [
    "Props.C119_deleted_once_partial",
    "Props.C119_fails_two_owners",
    "Props.C119_fails_flag",
    "Props.C119_fails_removed"
   ],
   "note": "C119_deleted_once_partial: each object is added at most once to collections other than those that are subsets in the end, and what is in the collections in the end is deleted. Fails: an object in two collections that are not subsets is deleted twice (C119_fails_two_owners, for all histories); setFlag replaces the whole flag word, so that a subset collection whose flags are set after setSubset deletes objects that are not its own (C119_fails_flag); an object that is removed from its collection is never deleted (C119_fails_removed). What the destructors of the objects themselves delete is in C92."
  },
  {
   "property": "C120",
   "status": "partial",
   "theorems": [
    "Props.C120_deleted_once",
    "Props.C120_values_partial",
    "Props.C120_nothing_lost",
    "Props.C120_copied_tracks",
    "Props.C120_fails_copies",
    "Props.C120_fails_replaced",
    "Props.C120_fails_two_owners"
   ],
   "note": "C120_deleted_once: for all programs, with copies, that give each thing away once. C120_nothing_lost: if only containers own things, everything is deleted in the end. C120_values_partial: without copies; also what exactly is deleted with an object. C120_copied_tracks: tracks do not share. Fails: copies of other objects share the extensions that were used before (C120_fails_copies); a pointer that is replaced is never deleted (C120_fails_replaced); what is given to two objects is deleted twice (C120_fails_two_owners). Containers are changed with push_back only."
  },
  {
   "property": "C121",
   "status": "partial",
   "theorems": [
    "Props.C121_full_disk_partial",
    "Props.C121_fix_partial",
    "Props.C121_fails_no_room"
   ],
   "note": "C121_full_disk_partial: if the new file does not fit, the program is terminated (the destructor that closes the writer throws), unless not a single thing was written. C121_fails_no_room: then the program ends with status 0, after the message that something went wrong. There are the restrictions of C71. C121_fix_partial: the same for copyfix with a file that is damaged because the machine stopped while it was written. Closing the reader is left out."
  },
  {
   "property": "C122",
   "status": "partial",
   "theorems": [
    "Props.C122_partial",
    "Props.C122_missing",
    "Props.C122_fails_first",
    "Props.C122_copyfix_partial",
    "Props.C122_fails_copyfix_missing",
    "Props.C122_fails_copyfix_same"
   ],
   "note": "C122_partial: if the new file is none of the files that are read. C122_missing: nothing is changed if a file does not exist. Fails if the new file is the first one that is read: its content is lost without a message (C122_fails_first). If it is one of the others, what is read from it depends on buffers; this is not modelled. copyfix: C122_copyfix_partial; a file that does not exist is only reported by a message, with status 0 (C122_fails_copyfix_missing); a file that is copied to itself is empty afterwards (C122_fails_copyfix_same). There are the restrictions of C71; two names are the same file only if they are equal."
  },
  {
   "property": "C123",
   "status": "partial",
   "theorems": [
    "Props.C123_from_end",
    "Props.C123_stay",
    "Props.C123_read_only",
    "Props.C123_forward_partial",
    "Props.C123_fails_forward",
    "Props.C123_fails_counted"
   ],
   "note": "C123_from_end, C123_stay: loops from the end, and loops that stay at an index after a removal, are correct. C123_read_only: nothing is changed. C123_forward_partial: a loop that always goes on is correct if no two selected elements are neighbours; otherwise a selected element stays (C123_fails_forward). A loop that asks for the number of elements only once accesses elements behind the end (C123_fails_counted)."
  }
 ]
}