{
 "claims": [
  {
   "property": "C01",
   "status": "proved",
   "theorems": [
    "Verif.LL.c01_list_is_sequence"
   ],
   "note": "Pointer-level heap model of MP4LinkedList.c refined to a plain sequence, for every sequence of fewer than 2^32 calls; no call reaches undefined behaviour."
  },
  {
   "property": "C02",
   "status": "proved",
   "theorems": [
    "Verif.Hdl.c02_handles",
    "Verif.Hdl.c02_self_cat_overruns",
    "Verif.Hdl.c02_wrapping_cat_overruns",
    "Verif.Hdl.c02_cat_after_failed_realloc_overruns"
   ],
   "note": "Refinement of every history of handle calls to an abstract contents machine; the three side conditions of the property are each shown necessary by a witness reaching undefined behaviour."
  },
  {
   "property": "C03",
   "status": "proved",
   "theorems": [
    "Verif.c03_put_big_endian",
    "Verif.c03_round_trip",
    "Verif.c03_short_read"
   ],
   "note": "All widths, all values, all surrounding bytes."
  },
  {
   "property": "C04",
   "status": "proved",
   "theorems": [
    "Verif.c04_never_beyond_size",
    "Verif.c04_all_fit",
    "Verif.c04_guard_wraps"
   ],
   "note": "The guard is computed in 32 bits; the theorems assume bytesWritten+len does not overflow, and c04_guard_wraps shows the assumption is needed."
  },
  {
   "property": "C05",
   "status": "proved",
   "theorems": [
    "Verif.Stts.c05_query_cache_independent",
    "Verif.Stts.c05_long_run_wraps",
    "Verif.Stts.c05_stale_cache"
   ],
   "note": "queries after any query history; plus witnesses that the run-length condition and the no-modification condition are needed"
  },
  {
   "property": "C06",
   "status": "proved",
   "theorems": [
    "Verif.Stts.c06_add_history",
    "Verif.Stts.c06_extend_last",
    "Verif.Stts.c06_extend_empty"
   ],
   "note": ""
  },
  {
   "property": "C07",
   "status": "proved",
   "theorems": [
    "Verif.Stts.c07_stts_round_trip"
   ],
   "note": ""
  },
  {
   "property": "C08",
   "status": "partial",
   "theorems": [
    "Verif.Stts.c08_find_samples",
    "Verif.Stts.c08_api_partial",
    "Verif.Stts.c08_api_wrong_time",
    "Verif.Stts.c08_api_zero_duration"
   ],
   "note": "findSamples is proved in full; the API function MP4MediaTimeToSampleNum returns the wrong decoding time inside a run (negation proved), and the right sample only without zero-duration samples"
  },
  {
   "property": "C09",
   "status": "proved",
   "theorems": [
    "Verif.Stsc.c09_sample_to_chunk",
    "Verif.Stsc.c09_zero_divides"
   ],
   "note": ""
  },
  {
   "property": "C10",
   "status": "partial",
   "theorems": [
    "Verif.Stsc.c10_description_partial",
    "Verif.Stsc.c10_single_description",
    "Verif.Stsc.c10_wrong_description"
   ],
   "note": "the description returned is that of the previous sample's chunk; wrong exactly on the first sample of a run with a new description (negation proved); full property proved for tracks with one description"
  },
  {
   "property": "C100",
   "status": "partial",
   "theorems": [
    "Verif.Display.c100_last_set_partial",
    "Verif.Display.c100_not_wide",
    "Verif.Display.c100_not_high",
    "Verif.Display.c100_fraction"
   ],
   "note": "Proved for all call sequences with widths and heights below 2^16 (c100_last_set_partial); disproved for all others (c100_not_wide, c100_not_high). Sizes with a fraction, from other writers, are answered without it (c100_fraction)."
  },
  {
   "property": "C101",
   "status": "partial",
   "theorems": [
    "Verif.Iinf.c101_info_partial",
    "Verif.Iinf.c101_file_partial",
    "Verif.Iinf.c101_not_name",
    "Verif.Iinf.c101_content",
    "Verif.Iinf.c101_not_content",
    "Verif.Iinf.c101_not_newest",
    "Verif.Iinf.c101_types_partial",
    "Verif.Iinf.c101_not_mixed",
    "Verif.Iinf.c101_not_wide"
   ],
   "note": "Answers proved for items with information set once and without content types, in memory and through a file; items by type proved if all located items have types. Negative theorems: erased name, unterminated content types, oldest information, untyped items, version 3 entries."
  },
  {
   "property": "C102",
   "status": "partial",
   "theorems": [
    "Verif.UserData.c102_items_partial",
    "Verif.UserData.c102_box_partial",
    "Verif.UserData.c102_not_free",
    "Verif.UserData.c102_not_types"
   ],
   "note": "Proved for types that the library has no class for. Missing: uuid boxes and boxes of known classes as user data. Negative theorems: free space is lost, types without items."
  },
  {
   "property": "C103",
   "status": "partial",
   "theorems": [
    "Verif.Iprp.c103_properties_partial",
    "Verif.Iprp.c103_box_partial",
    "Verif.Iprp.c103_grows",
    "Verif.Iprp.c103_not_asked",
    "Verif.Iprp.c103_not_many",
    "Verif.Iprp.c103_not_free"
   ],
   "note": "Proved for up to 127 properties of classes that survive by themselves. Missing: files of other writers with associations of 16 bits (C36 shows that they lose the flag). Negative theorems: growth, more than 127 properties, free space, asking first."
  },
  {
   "property": "C104",
   "status": "partial",
   "theorems": [
    "Verif.ItemRange.c104_ranges_partial",
    "Verif.ItemRange.c104_read",
    "Verif.ItemRange.c104_not_elsewhere",
    "Verif.ItemRange.c104_not_inside",
    "Verif.ItemRange.c104_refused",
    "Verif.ItemRange.c104_file"
   ],
   "note": "Proved for items whose first range starts at the base of the item, for any number of ranges and any items read before, and through the item location box. For other items the exact bytes read are proved (c104_read), that they are the wrong ones unless the file repeats (c104_not_elsewhere), and that a range near the end of a file is read past it (c104_not_inside)."
  },
  {
   "property": "C105",
   "status": "proved",
   "theorems": [
    "Verif.Foreign.c105_files",
    "Verif.Foreign.c105_bytes",
    "Verif.Foreign.c105_read",
    "Verif.Foreign.c105_too_large",
    "Verif.Foreign.c105_inside"
   ],
   "note": "Types the library has a class for are outside: a parameter of the model tells them. Allocation succeeds. Sizes that overflow to exactly 0 or 1 are not covered by c105_too_large. c105_inside gives the hypothesis of the theorems about boxes in other boxes (C70, C71, C73, C80, C90)."
  },
  {
   "property": "C106",
   "status": "partial",
   "theorems": [
    "Verif.Primary.c106_data",
    "Verif.Primary.c106_item_partial",
    "Verif.Primary.c106_same",
    "Verif.Primary.c106_nothing",
    "Verif.Primary.c106_not_empty"
   ],
   "note": "Proved for data with at least one byte, asked for as it was given, and for primary items whose data reference is for a file and that have one extent, or several of which the first starts at the base (c106_same: the data of any primary item is that of the item by itself). Data of no bytes is an error (c106_not_empty). Items with construction methods 1 and 2 are not in this model."
  },
  {
   "property": "C11",
   "status": "proved",
   "theorems": [
    "Verif.Stsc.c11_record_chunks",
    "Verif.Stsc.c11_stsc_round_trip",
    "Verif.Stsc.c11_recorded_round_trip"
   ],
   "note": ""
  },
  {
   "property": "C12",
   "status": "proved",
   "theorems": [
    "Verif.Stsz.c12_sizes_and_offsets",
    "Verif.Stsz.c12_empty_batch_loses_sizes"
   ],
   "note": "Histories of non-empty batches; c12_empty_batch_loses_sizes shows why an empty batch must be excluded."
  },
  {
   "property": "C13",
   "status": "proved",
   "theorems": [
    "Verif.Stsz.c13_stsz_round_trip",
    "Verif.Stsz.c13_nibbles_swapped"
   ],
   "note": "c13_nibbles_swapped records that the 4-bit packing differs from the standard, though the library is consistent with itself."
  },
  {
   "property": "C14",
   "status": "proved",
   "theorems": [
    "Verif.Stco.c14_chunk_offsets"
   ],
   "note": ""
  },
  {
   "property": "C15",
   "status": "proved",
   "theorems": [
    "Verif.Stco.c15_moves_exactly",
    "Verif.Stco.c15_move_undone",
    "Verif.Stco.c15_destination_must_be_free"
   ],
   "note": "Chunk offsets of one track; the two directions for item extents are under C35."
  },
  {
   "property": "C16",
   "status": "proved",
   "theorems": [
    "Verif.Stss.c16_sync_samples",
    "Verif.Stss.c16_stss_round_trip",
    "Verif.Stss.c16_null_handle",
    "Verif.Stss.c16_unsorted"
   ],
   "note": "Every batch states its sync samples in increasing order; c16_null_handle and c16_unsorted show what happens otherwise."
  },
  {
   "property": "C17",
   "status": "partial",
   "theorems": [
    "Verif.Ctts.c17_offsets_partial",
    "Verif.Ctts.c17_no_offsets",
    "Verif.Ctts.c17_ctts_round_trip",
    "Verif.Ctts.c17_late_offsets"
   ],
   "note": "Holds when the first batch has offsets or none has; c17_late_offsets refutes the full statement: offsets that start late are attributed to the first samples."
  },
  {
   "property": "C18",
   "status": "proved",
   "theorems": [
    "Verif.Elst.c18_elst_round_trip",
    "Verif.Elst.c18_built_lists_fit",
    "Verif.Elst.c18_inserted_empty_edit",
    "Verif.Elst.c18_long_duration_lost",
    "Verif.Elst.c18_rate_read"
   ],
   "note": "Two further theorems show what is outside: an empty edit inserted as a segment, and durations of 2^32 and more in version 0, the only version the library creates."
  },
  {
   "property": "C19",
   "status": "proved",
   "theorems": [
    "Verif.Padb.c19_padding_bits",
    "Verif.Padb.c19_never_mentioned",
    "Verif.Padb.c19_halves_swapped"
   ],
   "note": "The library puts the earlier sample of a pair in the low half of the byte, the standard in the high half: c19_halves_swapped."
  },
  {
   "property": "C20",
   "status": "proved",
   "theorems": [
    "Verif.Sdtp.c20_dependencies",
    "Verif.Sdtp.c20_refused",
    "Verif.Sdtp.c20_before_first"
   ],
   "note": "An index before the first sample, counted from the end, is outside: c20_before_first."
  },
  {
   "property": "C21",
   "status": "proved",
   "theorems": [
    "Verif.Sgpd.c21_accepted",
    "Verif.Sgpd.c21_index_stable"
   ],
   "note": "All histories of addGroupDescription calls. Index wrap beyond 2^32 descriptions excluded."
  },
  {
   "property": "C22",
   "status": "proved",
   "theorems": [
    "Verif.Sbgp.c22_groups",
    "Verif.Sbgp.c22_no_samples"
   ],
   "note": "All histories of addSamples/mapSamplestoGroup below 2^28 samples, then run-length write and parse. c22_no_samples: with no sample the serializer reads unallocated memory."
  },
  {
   "property": "C23",
   "status": "proved",
   "theorems": [
    "Verif.Csgp.c23_compact_lossless",
    "Verif.Csgp.c23_field_fits",
    "Verif.Csgp.c23_history",
    "Verif.Csgp.c23_empty"
   ],
   "note": "For every history of adds and maps to groups below 2^31 with 1 to 2^25-1 samples (beyond, 32-bit costs overflow). c23_empty: with no samples the code has undefined behaviour."
  },
  {
   "property": "C24",
   "status": "proved",
   "theorems": [
    "Verif.Mdat.c24_copy_in_bounds",
    "Verif.Mdat.c24_copy_delivers",
    "Verif.Mdat.c24_add_in_bounds",
    "Verif.Mdat.c24_parse_defined"
   ],
   "note": ""
  },
  {
   "property": "C25",
   "status": "proved",
   "theorems": [
    "Verif.Media.c25_read_what_was_added",
    "Verif.Media.c25_long_duration_wrong"
   ],
   "note": "Durations of 2^31 or more are shown to be returned wrong by c25_long_duration_wrong."
  },
  {
   "property": "C26",
   "status": "proved",
   "theorems": [
    "Verif.Movie.c26_written_offsets",
    "Verif.Movie.c26_empty_last_chunk"
   ],
   "note": "Metadata item locations and auxiliary information offsets are not part of the model. c26_empty_last_chunk shows that a chunk that begins at the end of the data (samples without bytes) has its in-memory offset changed by writing; a header part of 2^31 bytes or more gives a negative displacement."
  },
  {
   "property": "C27",
   "status": "proved",
   "theorems": [
    "Verif.Movie.c27_merge_keeps_bytes",
    "Verif.Movie.c27_far_box_wrong"
   ],
   "note": "Errors of mdatMoved, which the code ignores, are results in the model; they do not occur for well-formed tables. c27_far_box_wrong shows the size limit is needed. Metadata item locations are not part of the model."
  },
  {
   "property": "C28",
   "status": "proved",
   "theorems": [
    "Verif.Traf.c28_defaults_preserved",
    "Verif.Traf.c28_omitted",
    "Verif.Traf.c28_empty_run"
   ],
   "note": "every run non-empty; a run without samples is undefined behaviour (c28_empty_run); group and auxiliary boxes of a fragment are not part of the model"
  },
  {
   "property": "C29",
   "status": "proved",
   "theorems": [
    "Verif.FragSeq.c29_numbers",
    "Verif.FragSeq.c29_increasing",
    "Verif.FragSeq.c29_merge",
    "Verif.FragSeq.c29_decision",
    "Verif.FragSeq.c29_accepted",
    "Verif.FragSeq.c29_header",
    "Verif.FragSeq.c29_wraps"
   ],
   "note": "Numbers 1..n for n < 2^32 fragments (then the 32-bit number wraps, c29_wraps). Merging is exactly merging in order when the numbers strictly increase, and is refused otherwise; the merge of one fragment is a parameter."
  },
  {
   "property": "C30",
   "status": "proved",
   "theorems": [
    "Verif.Descr.c30_written",
    "Verif.Descr.c30_any_length_form",
    "Verif.Descr.c30_too_long_cut"
   ],
   "note": "Default class (all tags without a class of their own; the classes 3, 4 and 6 are in C49). A body of 2^28 bytes or more is written with its length cut, without an error (c30_too_long_cut)."
  },
  {
   "property": "C31",
   "status": "proved",
   "theorems": [
    "Verif.Headers.c31_set_get",
    "Verif.Headers.c31_get_set",
    "Verif.Headers.c31_upper_case_undefined"
   ],
   "note": "Also after writing and parsing mdhd. Characters below 0x60 (upper case) are an undefined shift in the C code (c31_upper_case_undefined)."
  },
  {
   "property": "C32",
   "status": "partial",
   "theorems": [
    "Verif.Tree.c32_parse_iff_partial",
    "Verif.Tree.c32_container_partial",
    "Verif.Tree.c32_total",
    "Verif.Tree.c32_large_child_fails",
    "Verif.Tree.c32_fitting_box_is_read",
    "Verif.Tree.c32_write_read",
    "Verif.Tree.c32_roundtrip"
   ],
   "note": "Proved for streams shorter than 4 GB; in longer ones a child with a 64-bit size breaks it (c32_large_child_fails). The write and read theorems, and totality, hold for all streams. Containers: edts, dinf, schi, ipco, jp2h, rinf, moov, trak, mdia, minf; other boxes are their bytes."
  },
  {
   "property": "C33",
   "status": "partial",
   "theorems": [
    "Verif.Tracks.c33_unique_partial",
    "Verif.Tracks.c33_unique_read_partial",
    "Verif.Tracks.c33_lookup_partial",
    "Verif.Tracks.c33_refused",
    "Verif.Tracks.c33_nonzero",
    "Verif.Tracks.c33_in_use_refused",
    "Verif.Tracks.c33_auto",
    "Verif.Tracks.c33_fails",
    "Verif.Tracks.c33_lookup_fails"
   ],
   "note": "Holds unless a particular ID is asked for when a track has ID 2^32 - 1 (c33_fails). No ID 0 and refusal without effect hold always."
  },
  {
   "property": "C34",
   "status": "partial",
   "theorems": [
    "Verif.Meta.c34_partial",
    "Verif.Meta.c34_auto",
    "Verif.Meta.c34_find",
    "Verif.Meta.c34_refused",
    "Verif.Meta.c34_nonzero",
    "Verif.Meta.c34_duplicate",
    "Verif.Meta.c34_wraps",
    "Verif.Meta.c34_after_reading"
   ],
   "note": "Unique when no ID in use is asked for and 65535 is not in use then; always with automatic IDs. An ID in use is accepted (c34_duplicate), IDs start again after 65535 (c34_wraps) and after reading a file (c34_after_reading). No ID 0 and refusal without effect hold always."
  },
  {
   "property": "C35",
   "status": "proved",
   "theorems": [
    "Verif.Iloc.c35_widths",
    "Verif.Iloc.c35_round_trip",
    "Verif.Iloc.c35_same"
   ],
   "note": "Widths are allowed and large enough for every value; exact size; round trip. A missing list of extents comes back as an empty one. In versions other than 1 the construction method and extent index must be 0, as they are not written."
  },
  {
   "property": "C36",
   "status": "partial",
   "theorems": [
    "Verif.Ipma.c36_round_trip_partial",
    "Verif.Ipma.c36_wide_loses",
    "Verif.Ipma.c36_fails",
    "Verif.Ipma.c36_narrow_overflows"
   ],
   "note": "Holds in the 8-bit form and in the 16-bit form without essential associations. The 16-bit form loses every essential flag (c36_wide_loses, c36_fails)."
  },
  {
   "property": "C37",
   "status": "partial",
   "theorems": [
    "Verif.Sidx.c37_round_trip_partial",
    "Verif.Sidx.c37_fails",
    "Verif.Sidx.c37_others_fail",
    "Verif.Sidx.c37_written",
    "Verif.Sidx.c37_ref_size_cut",
    "Verif.Sidx.c37_add"
   ],
   "note": "Holds for an index without references only. No index with a reference that is written can be parsed (c37_fails)."
  },
  {
   "property": "C38",
   "status": "proved",
   "theorems": [
    "Verif.UserData.c38_items",
    "Verif.UserData.c38_add",
    "Verif.UserData.c38_delete",
    "Verif.UserData.c38_types",
    "Verif.UserData.c38_listed"
   ],
   "note": "For all histories through the MP4UserData.c functions (type 0 is refused by them)."
  },
  {
   "property": "C39",
   "status": "proved",
   "theorems": [
    "Verif.Tref.c39_history",
    "Verif.Tref.c39_distinct",
    "Verif.Tref.c39_get",
    "Verif.Tref.c39_type_round_trip",
    "Verif.Tref.c39_round_trip",
    "Verif.Tref.c39_survives",
    "Verif.Tref.c39_no_type"
   ],
   "note": "After any calls the IDs of a type are the first occurrences, without 0; box of one type and whole container round trip. Types uuid, free and skip, which the parser of a container treats in another way, are excluded from the round trip."
  },
  {
   "property": "C40",
   "status": "partial",
   "theorems": [
    "Verif.Saiz.c40_count",
    "Verif.Saiz.c40_merge",
    "Verif.Saiz.c40_add",
    "Verif.Saiz.c40_add_refused",
    "Verif.Saiz.c40_round_trip_partial",
    "Verif.Saiz.c40_overrun"
   ],
   "note": "Merging and adding append to the list of sizes for any mixture of forms; round trip. Full: the round trip for every table. Missing (proved not to hold): reading sizes stores four bytes for each, past the end of the block, so tables with sizes of their own need room behind the block (c40_overrun)."
  },
  {
   "property": "C41",
   "status": "proved",
   "theorems": [
    "Verif.Subs.c41_added",
    "Verif.Subs.c41_round_trip",
    "Verif.Subs.c41_add_plain",
    "Verif.Subs.c41_no_subsamples_rejected"
   ],
   "note": "Entries added in any number are held in order, the 32-bit form is chosen exactly if needed, and the box is read back. Entries without sub-samples are outside the quantifier: the parser refuses them (c41_no_subsamples_rejected)."
  },
  {
   "property": "C42",
   "status": "proved",
   "theorems": [
    "Verif.Reader.c42_reads_every_sample_once",
    "Verif.Reader.c42_late_times_wrap"
   ],
   "note": "Times must be below 2^31 because the interface returns s32; c42_late_times_wrap shows what happens otherwise."
  },
  {
   "property": "C43",
   "status": "partial",
   "theorems": [
    "Verif.Mdat.c43_header_partial",
    "Verif.Mdat.c43_wrong_size",
    "Verif.Mdat.c43_empty"
   ],
   "note": "The header is wrong for the eight data lengths from 2^32-8 to 2^32-1 (c43_wrong_size); proved for all others. Data of 2^31 bytes or more is located but not kept by the parser, as the code intends. A box without data is not written (c43_empty)."
  },
  {
   "property": "C44",
   "status": "proved",
   "theorems": [
    "Verif.Headers.c44_track_header",
    "Verif.Headers.c44_media_header",
    "Verif.Headers.c44_movie_header",
    "Verif.Headers.c44_long_duration_cut"
   ],
   "note": "For all field values: what comes back is every field cut to its width; equal when the fields fit. Version 0 cuts times of 2^32 or more without an error (c44_long_duration_cut)."
  },
  {
   "property": "C45",
   "status": "proved",
   "theorems": [
    "Verif.Elst.c45_segment_times",
    "Verif.Elst.c45_effective_duration",
    "Verif.Elst.c45_track_offset"
   ],
   "note": ""
  },
  {
   "property": "C46",
   "status": "proved",
   "theorems": [
    "Verif.Sgpd.c46_sgpd_round_trip",
    "Verif.Sgpd.c46_version_2"
   ],
   "note": "Version 1, the only version the library creates. c46_version_2 shows the version 2 case (parsed then re-written) is corrupted: default index not written."
  },
  {
   "property": "C47",
   "status": "partial",
   "theorems": [
    "Verif.Sbgp.c47_last_of_each_run_partial",
    "Verif.Sbgp.c47_only_last_of_run"
   ],
   "note": "The library reports only the last sample of each run of neighbours in the group; the partial theorem characterises exactly what is reported, c47_only_last_of_run refutes the full statement."
  },
  {
   "property": "C48",
   "status": "partial",
   "theorems": [
    "Verif.Csgp.c48_round_trip_partial",
    "Verif.Csgp.c48_compacted_partial",
    "Verif.Csgp.c48_forty_patterns"
   ],
   "note": "Proved for at most 34 patterns. c48_forty_patterns proves the code fails for every consistent box with 40 or more: the parser overruns an 80-byte message buffer. Between 35 and 39 it depends on the number of digits of the indices."
  },
  {
   "property": "C49",
   "status": "proved",
   "theorems": [
    "Verif.Descr.c49_es_descriptor",
    "Verif.Descr.c49_esds_box",
    "Verif.Descr.c49_add_keeps",
    "Verif.Descr.c49_oci_moves",
    "Verif.Descr.c49_own_timestamps_not_written"
   ],
   "note": "With IPMP descriptor pointers; the other IPMP classes inside the ES descriptor are not modelled. Descriptors of the OCI extension range change list (c49_oci_moves); own time stamps in the SL configuration cannot be written (c49_own_timestamps_not_written)."
  },
  {
   "property": "C50",
   "status": "partial",
   "theorems": [
    "Verif.Tref.c50_index_partial",
    "Verif.Tref.c50_index_fails"
   ],
   "note": "Holds for a track not yet referenced by the type. Fails otherwise: the index returned is the number of references (c50_index_fails)."
  },
  {
   "property": "C51",
   "status": "proved",
   "theorems": [
    "Verif.Ipma.c51_properties"
   ],
   "note": "All sequences of fewer than 65536 attachments."
  },
  {
   "property": "C52",
   "status": "partial",
   "theorems": [
    "Verif.Meta.c52_item_data",
    "Verif.Meta.c52_media_data_partial",
    "Verif.Meta.c52_second_item_fails",
    "Verif.Meta.c52_mixed_fails",
    "Verif.Meta.c52_one_extent",
    "Verif.Meta.c52_base_and_offsets_fail"
   ],
   "note": "Holds for the item data box with non-empty pieces, and in the media data box for the item whose data comes first. Any other item in the media data box is read from twice its offset (c52_second_item_fails); pieces in both boxes are confused (c52_mixed_fails). For given locations, one extent is read from base plus offset (c52_one_extent), several only if the base is 0 (c52_base_and_offsets_fail)."
  },
  {
   "property": "C53",
   "status": "partial",
   "theorems": [
    "Verif.Reader.c53_reads_the_edits_partial",
    "Verif.Reader.c53_empty_edit_at_the_end_fails"
   ],
   "note": "Holds for all edit lists whose last edit is not empty and whose other non-empty edits lie in the media and show something; all sample durations positive. Fails for a list that ends with an empty edit: the sample before it is lost (c53_empty_edit_at_the_end_fails)."
  },
  {
   "property": "C54",
   "status": "partial",
   "theorems": [
    "Verif.Merge.c54_merge_partial",
    "Verif.Merge.c54_decode_time",
    "Verif.Merge.c54_not_sizes",
    "Verif.Merge.c54_not_sync",
    "Verif.Merge.c54_not_description",
    "Verif.Merge.c54_not_error",
    "Verif.Merge.c54_not_first_time",
    "Verif.Merge.c54_not_empty_run",
    "Verif.Merge.c54_not_offsets"
   ],
   "note": "The code violates the full statement: see the c54_not_ theorems (sizes, sync status, sample description, composition offsets, errors, first decode time, empty run). c54_merge_partial proves it for fragments that use the only sample description, start with composition offsets if any run has them, keep having samples that are not sync samples once one run has, and have samples of different sizes in the first run or one size everywhere; c54_decode_time that each fragment then starts at its decode time."
  },
  {
   "property": "C55",
   "status": "partial",
   "theorems": [
    "Verif.Config.Avc.c55_avc_round_trip",
    "Verif.Config.Avc.c55_avc_sets",
    "Verif.Config.Avc.c55_not_avc_extension",
    "Verif.Config.Avc.c55_not_avc_long",
    "Verif.Config.Hevc.c55_hevc_round_trip",
    "Verif.Config.Hevc.c55_hevc_returned",
    "Verif.Config.Hevc.c55_hevc_sets_partial",
    "Verif.Config.Hevc.c55_not_hevc_without_vps",
    "Verif.Config.Hevc.c55_not_hevc_sps_only",
    "Verif.Config.Hevc.c55_not_hevc_other_type",
    "Verif.Config.Hevc.c55_not_hevc_nine_arrays",
    "Verif.Config.Vvc.c55_vvc_round_trip_partial",
    "Verif.Config.Vvc.c55_vvc_sets_partial",
    "Verif.Config.Vvc.c55_not_vvc_second",
    "Verif.Config.Vvc.c55_not_vvc_sub_profile",
    "Verif.Config.Vvc.c55_not_vvc_no_constraints",
    "Verif.Config.Vvc.c55_not_vvc_empty_array",
    "Verif.Config.Vvc.c55_not_vvc_other_type",
    "Verif.Config.Vvn.c55_vvc_length_size"
   ],
   "note": "Full for AVC within the field sizes and the profiles the code knows. HEVC loses sets by type (exact characterisation proved); VVC needs one constraint byte, no sub-profiles, at most one OPI and DCI set. The failing cases are proved as negations."
  },
  {
   "property": "C56",
   "status": "partial",
   "theorems": [
    "Verif.FragFile.c56_found_partial",
    "Verif.FragFile.c56_sample",
    "Verif.FragFile.c56_not_padding",
    "Verif.FragFile.c56_not_time",
    "Verif.FragFile.c56_not_empty",
    "Verif.FragFile.c56_not_far_run",
    "Verif.FragFile.c56_not_far_base"
   ],
   "note": "c56_found_partial: all files, tracks, fragments and calls in range (padding not used, times below 2^32, no call without samples, file below 2 GB); c56_sample: the same for each sample. The c56_not_ theorems show that each restriction is needed: the code breaks the claim there."
  },
  {
   "property": "C57",
   "status": "partial",
   "theorems": [
    "Verif.Conform.c57_understood_partial",
    "Verif.Conform.c57_moof_based",
    "Verif.Conform.c57_not_second_run",
    "Verif.Conform.c57_not_chained",
    "Verif.Conform.c57_not_far",
    "Verif.Conform.c57_not_member",
    "Verif.Conform.c57_not_track"
   ],
   "note": "c57_understood_partial: all fragments in the layout of the standard in which runs behind the first have offsets, and track fragments based on the one before come behind at most one run below 4 GB; c57_moof_based: no such condition when the base is given or is the fragment box. The c57_not_ theorems show that the code breaks the claim otherwise."
  },
  {
   "property": "C58",
   "status": "partial",
   "theorems": [
    "Verif.FragFile.c58_reported_partial",
    "Verif.FragFile.c58_decode_time",
    "Verif.FragFile.c58_not_sizes",
    "Verif.FragFile.c58_not_sync",
    "Verif.FragFile.c58_not_offsets",
    "Verif.FragFile.c58_not_first_time"
   ],
   "note": "Holds for tracks whose first call has composition offsets if any has, in which every call after one with a non-sync sample has one too, whose samples all have one size or whose first call has differing sizes or a size 0, which start at time 0, and in the ranges of C56; each restriction has a negative theorem on a file that was written."
  },
  {
   "property": "C59",
   "status": "partial",
   "theorems": [
    "Verif.Iinf.c59_answers",
    "Verif.Iinf.c59_file_partial",
    "Verif.Iinf.c59_content_read",
    "Verif.Iinf.c59_not_content",
    "Verif.Iinf.c59_not_extension_type",
    "Verif.Iinf.c59_not_extension_zero",
    "Verif.Iinf.c59_not_long",
    "Verif.Iinf.c59_not_renamed"
   ],
   "note": "In memory the answers are proved for all call sequences (c59_answers). In a file: without content types and encodings (those of other writers are read and written again, c59_content_read), extension types come back reversed, names of less than about 4 KB; each gap has a negative theorem."
  },
  {
   "property": "C60",
   "status": "partial",
   "theorems": [
    "Verif.Iref.c60_answers",
    "Verif.Iref.c60_index",
    "Verif.Iref.c60_written",
    "Verif.Iref.c60_read_partial",
    "Verif.Iref.c60_not_read",
    "Verif.Iref.c60_not_second_list",
    "Verif.Iref.c60_not_after_empty",
    "Verif.Iref.c60_not_many",
    "Verif.Iref.c60_not_index_zero",
    "Verif.Iref.c60_not_large_id"
   ],
   "note": "In memory and written: proved for all call sequences. Reading: version 1 only; version 0, the one the library writes, is proved to go wrong (c60_not_read)."
  },
  {
   "property": "C61",
   "status": "proved",
   "theorems": [
    "Verif.Grpl.c61_answers",
    "Verif.Grpl.c61_file",
    "Verif.Grpl.c61_read",
    "Verif.Grpl.c61_not_rewritten"
   ],
   "note": "Rewriting a group that was read with further data is outside the claim; it fails (c61_not_rewritten)."
  },
  {
   "property": "C62",
   "status": "proved",
   "theorems": [
    "Verif.Brand.c62_answers",
    "Verif.Brand.c62_made",
    "Verif.Brand.c62_file",
    "Verif.Brand.c62_full",
    "Verif.Brand.c62_zero",
    "Verif.Brand.c62_empty",
    "Verif.Brand.c62_segment_by_others",
    "Verif.Brand.c62_segment_refused"
   ],
   "note": "Segment types by other writers, which are plain boxes, are outside the claim; they are misread or refused (c62_segment_by_others, c62_segment_refused)."
  },
  {
   "property": "C63",
   "status": "partial",
   "theorems": [
    "Verif.AuxInfo.c63_read_partial",
    "Verif.AuxInfo.c63_offsets_file",
    "Verif.AuxInfo.c63_write_out_of_bounds",
    "Verif.AuxInfo.c63_shared_offset",
    "Verif.AuxInfo.c63_merge_new_kind",
    "Verif.AuxInfo.c63_far_offset"
   ],
   "note": "In memory, for all histories. Missing: writing goes out of bounds for every media with auxiliary information (proved), offsets shared by samples are not handled, kinds first seen in a fragment cannot be merged (proved), offsets beyond 4 GiB are cut."
  },
  {
   "property": "C64",
   "status": "partial",
   "theorems": [
    "Verif.Bits.c64_read_partial",
    "Verif.Bits.c64_read_plain",
    "Verif.Bits.c64_past_end",
    "Verif.Bits.c64_empty"
   ],
   "note": "Reading is proved for all sequences of fields. The end of the bits is not noticed: reading goes on past the set."
  },
  {
   "property": "C65",
   "status": "partial",
   "theorems": [
    "Verif.ParamSet.c65_avc_partial",
    "Verif.ParamSet.c65_avc_444",
    "Verif.ParamSet.c65_avc_sps_dropped",
    "Verif.ParamSet.c65_hevc_partial",
    "Verif.ParamSet.c65_hevc_tier_lost",
    "Verif.ParamSet.c65_vvc_partial",
    "Verif.ParamSet.c65_vvc_constraints",
    "Verif.ParamSet.c65_vvc_subprofiles"
   ],
   "note": "Proved for H.264 sets but with chroma format 3, all H.265 sets for the fields that the configuration has, and H.266 sets without general constraints and sub-profiles. The remaining ones are misread, dropped or undefined behaviour, with theorems."
  },
  {
   "property": "C66",
   "status": "partial",
   "theorems": [
    "Verif.ByTime.c66_sample_by_time_partial",
    "Verif.ByTime.c66_every_time",
    "Verif.ByTime.c66_empty_media",
    "Verif.ByTime.c66_interesting_times",
    "Verif.ByTime.c66_interesting_times_partial",
    "Verif.ByTime.c66_edges_missed",
    "Verif.ByTime.c66_packet",
    "Verif.ByTime.c66_sync_ignored"
   ],
   "note": "c66_sample_by_time_partial needs that the media data is not empty (c66_empty_media: a track of empty samples can be read by number but not by time). Interesting times are right in two of the four cases (c66_interesting_times); in the two others they are right except at the start of a sample with the duration of the one before (c66_interesting_times_partial), where they are always wrong (c66_edges_missed). Sync samples are ignored (c66_sync_ignored)."
  },
  {
   "property": "C67",
   "status": "partial",
   "theorems": [
    "Verif.Cslg.c67_sums_partial",
    "Verif.Cslg.c67_end_time",
    "Verif.Cslg.c67_gap",
    "Verif.Cslg.c67_flag_late",
    "Verif.Cslg.c67_flag_late_reached",
    "Verif.Cslg.c67_long",
    "Verif.Cslg.c67_box",
    "Verif.Cslg.c67_props_again",
    "Verif.Cslg.c67_props_partial"
   ],
   "note": "All but the end time, for histories that set the flag first and always give offsets. The end time is wrong whenever durations are positive (c67_end_time); a batch without offsets is not counted (c67_gap); the flag set late dereferences NULL (c67_flag_late); times over 2^31 are cut (c67_long); properties of fragments set twice are kept twice since the search reads the wrong list (c67_props_again)."
  },
  {
   "property": "C68",
   "status": "partial",
   "theorems": [
    "Verif.Rows.c68_vmhd",
    "Verif.Rows.c68_smhd",
    "Verif.Rows.c68_hmhd",
    "Verif.Rows.c68_trex",
    "Verif.Rows.c68_prft",
    "Verif.Rows.c68_pcmc",
    "Verif.Rows.c68_isfm",
    "Verif.Rows.c68_mere",
    "Verif.Rows.c68_frma",
    "Verif.Rows.c68_damr",
    "Verif.Rows.c68_dawp",
    "Verif.Rows.c68_islt",
    "Verif.Rows.c68_btrt",
    "Verif.Rows.c68_bitr",
    "Verif.Rows.c68_pitm",
    "Verif.Rows.c68_stsh",
    "Verif.Rows.c68_stdp",
    "Verif.Rows.c68_pitm_version1",
    "Verif.Rows.c68_prft_version1"
   ],
   "note": "All 17 boxes, except that version 1 of pitm and prft is not supported: the item number is cut (c68_pitm_version1), the 64-bit media time ends in an assertion (c68_prft_version1)."
  },
  {
   "property": "C69",
   "status": "partial",
   "theorems": [
    "Verif.Str.c69_cprt",
    "Verif.Str.c69_cprt_open",
    "Verif.Str.c69_elng",
    "Verif.Str.c69_elng_open",
    "Verif.Str.c69_ikms",
    "Verif.Str.c69_ikms_open",
    "Verif.Str.c69_schm",
    "Verif.Str.c69_schm_none",
    "Verif.Str.c69_schm_open",
    "Verif.Str.c69_csch",
    "Verif.Str.c69_hdlr_partial",
    "Verif.Str.c69_hdlr_qt",
    "Verif.Str.c69_hdlr_mangled",
    "Verif.Str.c69_hdlr_long",
    "Verif.Str.c69_hdlr_open",
    "Verif.Str.c69_hdlr_qt_long",
    "Verif.Str.c69_hdlr_empty",
    "Verif.Str.c69_url",
    "Verif.Str.c69_url_self",
    "Verif.Str.c69_url_open",
    "Verif.Str.c69_alis",
    "Verif.Str.c69_handle_open",
    "Verif.Str.c69_urn_swapped",
    "Verif.Str.c69_urn_again",
    "Verif.Str.c69_urn_name_only",
    "Verif.Str.c69_get_url",
    "Verif.Str.c69_get_urn",
    "Verif.Str.c69_getEntry",
    "Verif.Str.c69_dref"
   ],
   "note": "Round trips hold for cprt, elng, iKMS, schm, url and dref (tables of url entries) with strings without NUL; handler names only up to 237 bytes and if the first byte is not the length (c69_hdlr_partial), the rest is proved to be mangled or undefined. URN references are written in the wrong order and lose their name (c69_urn_swapped, c69_urn_again, c69_get_urn). Strings of a file without NUL lead to undefined behaviour (the _open theorems, c69_alis). A created csch box is written as schm (c69_csch)."
  },
  {
   "property": "C70",
   "status": "partial",
   "theorems": [
    "Verif.Ent.c70_plain",
    "Verif.Ent.c70_volumetric",
    "Verif.Ent.c70_visual",
    "Verif.Ent.c70_restricted",
    "Verif.Ent.c70_audio_partial",
    "Verif.Ent.c70_mebx",
    "Verif.Ent.c70_encVisual",
    "Verif.Ent.c70_encAudio",
    "Verif.Ent.c70_enc_reads",
    "Verif.Ent.c70_mebx_twice",
    "Verif.Ent.c70_visual_reads",
    "Verif.Ent.c70_generic_flat",
    "Verif.Ent.c70_generic_partial",
    "Verif.Ent.c70_audio_qt_reads",
    "Verif.Ent.c70_audio_qt_lost",
    "Verif.Ent.c70_audio_broken",
    "Verif.Ent.c70_audio_padding",
    "Verif.Ent.c70_audio_mace",
    "Verif.Ent.c70_text_partial",
    "Verif.Ent.c70_xml_partial",
    "Verif.Ent.c70_xml_namespace",
    "Verif.Ent.c70_text_long",
    "Verif.Ent.c70_text_open",
    "Verif.Ent.c70_any",
    "Verif.Ent.c70_unlisted",
    "Verif.Ent.c70_stsd",
    "Verif.Ent.c70_stsd_any",
    "Verif.Ent.c70_stsd_count",
    "Verif.Ent.c70_getEntry"
   ],
   "note": "Round trips for all classes, any boxes, and the sample description box. The claim fails for the QuickTime fields of audio entries, boxes of generic entries, strings of 1024 bytes or more and types that are not listed; each of these is a theorem. Broken boxes in an audio entry are undefined behaviour."
  },
  {
   "property": "C71",
   "status": "partial",
   "theorems": [
    "Verif.Prot.c71_protect_visual",
    "Verif.Prot.c71_protect_audio",
    "Verif.Prot.c71_unprotect_visual",
    "Verif.Prot.c71_unprotect_audio",
    "Verif.Prot.c71_visual",
    "Verif.Prot.c71_audio_partial",
    "Verif.Prot.c71_twice",
    "Verif.Prot.c71_flags",
    "Verif.Prot.c71_other",
    "Verif.Prot.c71_scheme",
    "Verif.Prot.c71_no_address",
    "Verif.Prot.c71_open_address",
    "Verif.Prot.c71_no_format",
    "Verif.Prot.c71_sinf_reads",
    "Verif.Prot.c71_sinf_bad",
    "Verif.Prot.c71_protect_quicktime",
    "Verif.Prot.c71_restrict",
    "Verif.Prot.c71_unrestrict",
    "Verif.Prot.c71_unrestrict_twice",
    "Verif.Prot.c71_resv_partial",
    "Verif.Prot.c71_resv_no_address",
    "Verif.Prot.c71_resv_no_info",
    "Verif.Prot.c71_resv_bare",
    "Verif.Prot.c71_resv_other",
    "Verif.Prot.c71_unlocked"
   ],
   "note": "Round trips for all entries with any boxes, and what can be read from restricted entries. The claim fails for audio entries with the fields of QuickTime, for entries that are already protected, and for what is not in the file, where the code uses a NULL or unset pointer; each of these is a theorem."
  },
  {
   "property": "C72",
   "status": "partial",
   "theorems": [
    "Verif.Snd.c72_layout_write",
    "Verif.Snd.c72_layout_read",
    "Verif.Snd.c72_layout_objects",
    "Verif.Snd.c72_layout_lost",
    "Verif.Snd.c72_layout_short",
    "Verif.Snd.c72_layout_angles",
    "Verif.Snd.c72_layout1",
    "Verif.Snd.c72_layout1_angles",
    "Verif.Snd.c72_layout1_extra",
    "Verif.Snd.c72_layout1_short",
    "Verif.Snd.c72_downmix_write",
    "Verif.Snd.c72_downmix_stream",
    "Verif.Snd.c72_downmix_read",
    "Verif.Snd.c72_downmix_round",
    "Verif.Snd.c72_downmix_lost",
    "Verif.Snd.c72_downmix_short",
    "Verif.Snd.c72_downmix_spill",
    "Verif.Snd.c72_loudness",
    "Verif.Snd.c72_loudness_wrap",
    "Verif.Snd.c72_loudness_room",
    "Verif.Snd.c72_loudness_extra",
    "Verif.Snd.c72_box_read",
    "Verif.Snd.c72_box",
    "Verif.Snd.c72_box_data",
    "Verif.Snd.c72_box_over"
   ],
   "note": "False as stated, each with its negation over all boxes of the kind: a channel layout of version 0 with listed positions and an object count cannot be read, positions and coefficients that were read are lost when written, fewer positions or coefficients than channels use a pointer that was never set, positions with angles and measurements are stored one or more bytes beyond their block, more than 65536 coefficients keep only the last ones, trailing bytes fail an assertion. Proved: the wire form of what is written, what is read, the round trips outside these cases, the loudness box with any boxes inside."
  },
  {
   "property": "C73",
   "status": "partial",
   "theorems": [
    "Verif.Meb.c73_key",
    "Verif.Meb.c73_key_reads",
    "Verif.Meb.c73_key_twice",
    "Verif.Meb.c73_declaration",
    "Verif.Meb.c73_locale",
    "Verif.Meb.c73_setup",
    "Verif.Meb.c73_other",
    "Verif.Meb.c73_table",
    "Verif.Meb.c73_table_twice",
    "Verif.Meb.c73_add",
    "Verif.Meb.c73_add_full",
    "Verif.Meb.c73_add_last",
    "Verif.Meb.c73_free",
    "Verif.Meb.c73_placed",
    "Verif.Meb.c73_session",
    "Verif.Meb.c73_entry",
    "Verif.Meb.c73_handle",
    "Verif.Meb.c73_count",
    "Verif.Meb.c73_config",
    "Verif.Meb.c73_metadata_partial",
    "Verif.Meb.c73_no_value",
    "Verif.Meb.c73_long_value",
    "Verif.Meb.c73_wrong_value",
    "Verif.Meb.c73_bad_setup",
    "Verif.Meb.c73_high_refused",
    "Verif.Meb.c73_high_taken",
    "Verif.Meb.c73_short_value",
    "Verif.Meb.c73_empty_locale",
    "Verif.Meb.c73_zero",
    "Verif.Meb.c73_no_declaration",
    "Verif.Meb.c73_uuid",
    "Verif.Meb.c73_quicktime",
    "Verif.Meb.c73_quicktime_more",
    "Verif.Meb.c73_demux",
    "Verif.Meb.c73_demux_one",
    "Verif.Meb.c73_demux_none",
    "Verif.Meb.c73_demux_lost",
    "Verif.Meb.c73_demux_zero",
    "Verif.Meb.c73_demux_torn",
    "Verif.Meb.c73_demux_over",
    "Verif.Meb.c73_demux_over_other",
    "Verif.Meb.c73_locale_reads",
    "Verif.Meb.c73_table_among",
    "Verif.Meb.c73_no_table"
   ],
   "note": "Any sequence of requests, the written entry, the count and all configurations are proved, and the data of a sample. Missing, since the code violates it: a four-character value with a byte over 127 is refused or a wrong one taken (c73_high_refused, c73_high_taken) or read past its end (c73_short_value); an empty locale makes the entry unwritable (c73_empty_locale); the numbers 0 and uuid break the entry (c73_zero, c73_uuid); a key without a declaration and a QuickTime table lead to a NULL pointer (c73_no_declaration, c73_quicktime); of two boxes of a key in a sample the first is lost (c73_demux_lost); torn boxes in a sample are read past the end (c73_demux_torn, c73_demux_over)."
  },
  {
   "property": "C74",
   "status": "partial",
   "theorems": [
    "Verif.Od.c74_descriptor_partial",
    "Verif.Od.c74_same",
    "Verif.Od.c74_copy",
    "Verif.Od.c74_command_partial",
    "Verif.Od.c74_command_same",
    "Verif.Od.c74_iods_box",
    "Verif.Od.c74_iods_set",
    "Verif.Od.c74_add",
    "Verif.Od.c74_iod_add",
    "Verif.Od.c74_add_keeps",
    "Verif.Od.c74_iod_add_keeps",
    "Verif.Od.c74_remove",
    "Verif.Od.c74_tag_lost",
    "Verif.Od.c74_url_drops",
    "Verif.Od.c74_oci_moves",
    "Verif.Od.c74_copy_hides_errors"
   ],
   "note": "Proved with what the reader gives instead (readAny, readCmd). It is the same (c74_same, c74_command_same) except that the tag of object descriptors in files is lost (c74_tag_lost), that an initial object descriptor with a URL loses its streams and profiles (c74_url_drops), and that object content information added by the application changes its list and its place in the bytes (c74_oci_moves). A copy that fails is reported as a success without a result (c74_copy_hides_errors). IPMP tool classes, object descriptors in object descriptors and the IPMP command are outside the model."
  },
  {
   "property": "C75",
   "status": "partial",
   "theorems": [
    "Verif.Od.c75_frame_partial",
    "Verif.Od.c75_stream_partial",
    "Verif.Od.c75_description",
    "Verif.Od.c75_missing",
    "Verif.Od.c75_one_at_a_time",
    "Verif.Od.c75_twice",
    "Verif.Od.c75_pointer_in_stream",
    "Verif.Od.c75_errors_hidden",
    "Verif.Od.c75_anything_stored",
    "Verif.Od.c75_zero_reference",
    "Verif.Od.c75_pointer_unchecked",
    "Verif.Od.c75_own_configuration",
    "Verif.Od.c75_last_number"
   ],
   "note": "Frames and whole streams of frames are proved for streams named once and stream descriptors without pointers that name streams; the code shows the wrong stream otherwise (c75_twice, c75_pointer_in_stream)."
  },
  {
   "property": "C76",
   "status": "partial",
   "theorems": [
    "Verif.Od.c76_descriptor",
    "Verif.Od.c76_exchange_partial",
    "Verif.Od.c76_session",
    "Verif.Od.c76_read",
    "Verif.Od.c76_tracks_added",
    "Verif.Od.c76_whole",
    "Verif.Od.c76_url",
    "Verif.Od.c76_no_box",
    "Verif.Od.c76_streams_stay",
    "Verif.Od.c76_broken_by_configuration",
    "Verif.Od.c76_exchange_reopened"
   ],
   "note": "Proved for initial object descriptors; for exchange files until they are read again, after which the code mistakes their class (c76_exchange_reopened). Successful steps only: failing questions leave the descriptor changed (c76_streams_stay, c76_broken_by_configuration)."
  },
  {
   "property": "C77",
   "status": "partial",
   "theorems": [
    "Verif.Tgrp.c77_history",
    "Verif.Tgrp.c77_one_of_a_type",
    "Verif.Tgrp.c77_no_type",
    "Verif.Tgrp.c77_round_trip_partial",
    "Verif.Tgrp.c77_survives",
    "Verif.Tgrp.c77_extension_lost",
    "Verif.Tgrp.c77_stereo_lost",
    "Verif.Tgrp.c77_stereo_partial",
    "Verif.Tgrp.c77_stereo_shift",
    "Verif.Tgrp.c77_free_space",
    "Verif.Tgrp.c77_descriptor_streams",
    "Verif.Tgrp.c77_wrong_end"
   ],
   "note": "Full: all that is in a track group box is kept. Missing (proved not to hold): data after a group's ID, free space boxes, type 0."
  },
  {
   "property": "C78",
   "status": "partial",
   "theorems": [
    "Verif.Ssix.c78_read",
    "Verif.Ssix.c78_written",
    "Verif.Ssix.c78_refused",
    "Verif.Ssix.c78_write_iff_partial",
    "Verif.Ssix.c78_write_fails",
    "Verif.Ssix.c78_built_not_written"
   ],
   "note": "Full: write and read keep every table. Reading is exact; writing holds exactly for the tables in c78_write_iff_partial, and the rest is proved to fail or to be written differently."
  },
  {
   "property": "C79",
   "status": "partial",
   "theorems": [
    "Verif.Jp2.c79_signature_partial",
    "Verif.Jp2.c79_signature_wrong",
    "Verif.Jp2.c79_image_read",
    "Verif.Jp2.c79_image_written",
    "Verif.Jp2.c79_image_iff_partial",
    "Verif.Jp2.c79_image_twice",
    "Verif.Jp2.c79_bits_extra",
    "Verif.Jp2.c79_bits_partial",
    "Verif.Jp2.c79_bits_overrun",
    "Verif.Jp2.c79_bits_empty",
    "Verif.Jp2.c79_colour",
    "Verif.Jp2.c79_colour_lost",
    "Verif.Jp2.c79_h263",
    "Verif.Jp2.c79_stereo_read",
    "Verif.Jp2.c79_stereo_written",
    "Verif.Jp2.c79_stereo_partial",
    "Verif.Jp2.c79_stereo_overrun",
    "Verif.Jp2.c79_stereo_boxes_read",
    "Verif.Jp2.c79_stereo_boxes"
   ],
   "note": "Signature and image header are written in the byte order of the machine (exactly when that is right is proved); items and indications are stored with four bytes each, so the round trips of bits per component and stereo video need room behind the block; stereo video loses upper reserved bits and has no boxes; color specifications of unknown methods lose their parameters."
  },
  {
   "property": "C80",
   "status": "partial",
   "theorems": [
    "Verif.Ipro.c80_history_partial",
    "Verif.Ipro.c80_index_wraps",
    "Verif.Ipro.c80_scheme",
    "Verif.Ipro.c80_info",
    "Verif.Ipro.c80_read",
    "Verif.Ipro.c80_round_trip_partial",
    "Verif.Ipro.c80_too_many",
    "Verif.Ipro.c80_saved",
    "Verif.Ipro.c80_no_scheme",
    "Verif.Ipro.c80_other_box"
   ],
   "note": "Fewer than 65536 protections; with more the index wraps (c80_index_wraps) and the file is refused (c80_too_many)."
  },
  {
   "property": "C81",
   "status": "partial",
   "theorems": [
    "Verif.Dur.c81_history_partial",
    "Verif.Dur.c81_ended",
    "Verif.Dur.c81_stale",
    "Verif.Dur.c81_insert_partial",
    "Verif.Dur.c81_insert_between",
    "Verif.Dur.c81_whole",
    "Verif.Dur.c81_part_lost",
    "Verif.Dur.c81_dwell",
    "Verif.Dur.c81_offset",
    "Verif.Dur.c81_rescaled",
    "Verif.Dur.c81_no_list",
    "Verif.Dur.c81_no_scale",
    "Verif.Dur.c81_wraps",
    "Verif.Dur.c81_long"
   ],
   "note": "Fails when samples were added since the media was last counted (c81_stale), for parts of a media whose duration is the number the track lasts in other units (c81_part_lost), after a change of time scale (c81_rescaled), beyond 32 bits (c81_wraps, c81_long), for an edit box without list (c81_no_list)."
  },
  {
   "property": "C82",
   "status": "partial",
   "theorems": [
    "Verif.Reader.c82_gap_unread",
    "Verif.Dur.c82_plain",
    "Verif.Dur.c82_edits_partial",
    "Verif.Dur.c82_short_lost",
    "Verif.Dur.c82_skip_undone",
    "Verif.Dur.c82_gap",
    "Verif.Dur.c82_early",
    "Verif.Dur.c82_first_late"
   ],
   "note": "Fails for fragments shorter than a unit of the movie (c82_short_lost), for edit lists that skip the beginning (c82_skip_undone), for a first fragment that begins late (c82_first_late), and for empty fragments when the track is read (c82_gap_unread)."
  },
  {
   "property": "C83",
   "status": "partial",
   "theorems": [
    "Verif.MetaBox.c83_read",
    "Verif.MetaBox.c83_twice",
    "Verif.MetaBox.c83_round_trip",
    "Verif.MetaBox.c83_quicktime",
    "Verif.MetaBox.c83_damaged",
    "Verif.MetaBox.c83_data",
    "Verif.MetaBox.c83_data_single",
    "Verif.MetaBox.c83_data_iloc",
    "Verif.MetaBox.c83_data_known",
    "Verif.MetaBox.c83_saved",
    "Verif.MetaBox.c83_history",
    "Verif.MetaBox.c83_find_partial",
    "Verif.MetaBox.c83_find_one",
    "Verif.MetaBox.c83_same_type",
    "Verif.MetaBox.c83_third",
    "Verif.MetaBox.c83_relations_lost",
    "Verif.MetaBox.c83_relation_refused",
    "Verif.MetaBox.c83_container_read",
    "Verif.MetaBox.c83_container",
    "Verif.MetaBox.c83_reread",
    "Verif.MetaBox.c83_damaged_later",
    "Verif.MetaBox.c83_find_in_container"
   ],
   "note": "Two meta boxes of different types are found; a third is refused, a second of the same type is accepted and never found, and no relation is found. What is in a meta box survives in full."
  },
  {
   "property": "C84",
   "status": "partial",
   "theorems": [
    "Verif.ItemFile.c84_open_partial",
    "Verif.ItemFile.c84_deeper",
    "Verif.ItemFile.c84_not_two_places",
    "Verif.ItemFile.c84_not_offset_like_place",
    "Verif.ItemFile.c84_not_base_of_item_data",
    "Verif.ItemFile.c84_not_without_media_data",
    "Verif.ItemFile.c84_not_without_end",
    "Verif.ItemFile.c84_not_past_the_end",
    "Verif.ItemFile.c84_too_long",
    "Verif.ItemFile.c84_offset_without_length",
    "Verif.ItemFile.c84_not_without_index",
    "Verif.ItemFile.c84_reopened",
    "Verif.ItemFile.c84_not_as_written",
    "Verif.ItemFile.c84_not_readable_as_written",
    "Verif.ItemFile.c84_made_of_items"
   ],
   "note": "Proved for items whose extents are places in media data boxes with one extent or the first at the beginning of the media data, or offsets from a base in a box, for the item data box and for items made of items to any depth; false otherwise: places are moved or subtracted wrongly, written files give wrong places by the format, cycles and bad offsets are undefined."
  },
  {
   "property": "C85",
   "status": "partial",
   "theorems": [
    "Verif.OpenFile.c85_boxes",
    "Verif.OpenFile.c85_to_the_end",
    "Verif.OpenFile.c85_twice",
    "Verif.OpenFile.c85_neither",
    "Verif.OpenFile.c85_damaged",
    "Verif.OpenFile.c85_not_with_padding",
    "Verif.OpenFile.c85_empty",
    "Verif.OpenFile.c85_rounds",
    "Verif.OpenFile.c85_data_of_file",
    "Verif.OpenFile.c85_tracks_partial",
    "Verif.OpenFile.c85_items_partial",
    "Verif.OpenFile.c85_opens",
    "Verif.OpenFile.c85_fragments",
    "Verif.OpenFile.c85_sequence",
    "Verif.OpenFile.c85_not_fragments_alone"
   ],
   "note": "Files of 2 GiB and more are left out for the data (C27), and items not located as C84 says. Negatives: padding after the last box refuses the file, fragments without a movie box are undefined behaviour."
  },
  {
   "property": "C86",
   "status": "partial",
   "theorems": [
    "Verif.Handler.c86_path",
    "Verif.Handler.c86_reads_partial",
    "Verif.Handler.c86_not_after_missing",
    "Verif.Handler.c86_directory",
    "Verif.Handler.c86_not_backslash",
    "Verif.Handler.c86_opened",
    "Verif.Handler.c86_beside",
    "Verif.Handler.c86_not_checked",
    "Verif.Handler.c86_not_without_location",
    "Verif.Handler.c86_not_two_gigabytes",
    "Verif.Handler.c86_not_four_gigabytes",
    "Verif.Handler.c86_not_far",
    "Verif.Handler.c86_not_tested",
    "Verif.Handler.c86_items_alone",
    "Verif.Handler.c86_items_partial",
    "Verif.Handler.c86_whole_file",
    "Verif.Handler.c86_not_rest_of_file",
    "Verif.Handler.c86_items_missing"
   ],
   "note": "After a read from a missing file the track is stuck (c86_not_after_missing), so reads are stated for sequences without one; items with several extents need the first at the base (C84). Negatives: reads past the end, missing or unterminated locations, files above 2 GiB."
  },
  {
   "property": "C87",
   "status": "partial",
   "theorems": [
    "Verif.Stream.c87_file",
    "Verif.Stream.c87_memory_partial",
    "Verif.Stream.c87_not_before_start",
    "Verif.Stream.c87_not_checked",
    "Verif.Stream.c87_parsers_file",
    "Verif.Stream.c87_parsers_memory"
   ],
   "note": "Proved for streams over files as they are. For memory streams going back before the start of the block is excluded (c87_not_before_start refutes it: the amount is compared with an address). c87_not_checked: the stream trusts the size of its mapping object."
  },
  {
   "property": "C88",
   "status": "partial",
   "theorems": [
    "Verif.Stream.c88_reads_partial",
    "Verif.Stream.c88_empty",
    "Verif.Stream.c88_not_after_nothing",
    "Verif.Stream.c88_not_after_wrap",
    "Verif.Stream.c88_parsers_partial",
    "Verif.Stream.c88_stream_partial"
   ],
   "note": "Two kinds of requests are excluded because they break the mapping for good: reading nothing at the end of a file whose length is a multiple of 16 MiB (c88_not_after_nothing) and offsets that wrap with the length (c88_not_after_wrap)."
  },
  {
   "property": "C89",
   "status": "partial",
   "theorems": [
    "Verif.Ipmp.c89_tool",
    "Verif.Ipmp.c89_list",
    "Verif.Ipmp.c89_data",
    "Verif.Ipmp.c89_init",
    "Verif.Ipmp.c89_desc",
    "Verif.Ipmp.c89_update",
    "Verif.Ipmp.c89_new_tool",
    "Verif.Ipmp.c89_new_tool_refused",
    "Verif.Ipmp.c89_urls_partial",
    "Verif.Ipmp.c89_new_list",
    "Verif.Ipmp.c89_list_built",
    "Verif.Ipmp.c89_list_refused",
    "Verif.Ipmp.c89_pointer",
    "Verif.Ipmp.c89_init_built",
    "Verif.Ipmp.c89_new_desc",
    "Verif.Ipmp.c89_desc_built",
    "Verif.Ipmp.c89_update_built",
    "Verif.Ipmp.c89_not_url",
    "Verif.Ipmp.c89_not_256",
    "Verif.Ipmp.c89_not_256_alternates",
    "Verif.Ipmp.c89_not_initialize",
    "Verif.Ipmp.c89_not_initialized",
    "Verif.Ipmp.c89_not_zero_id",
    "Verif.Ipmp.c89_not_dropped",
    "Verif.Ipmp.c89_not_defined"
   ],
   "note": "Proved where the four-byte stores into one-byte locals do no harm (c89_not_defined otherwise). Violated: the bytes of URLs are not copied (c89_not_url), counts of 256 are written as 0 (c89_not_256, c89_not_256_alternates), descriptors with initialisation data are freed twice (c89_not_initialize, c89_not_initialized), the tool id 0 dereferences NULL (c89_not_zero_id), data added to a descriptor with a URL vanish (c89_not_dropped)."
  },
  {
   "property": "C90",
   "status": "partial",
   "theorems": [
    "Verif.Sde.c90_get_type",
    "Verif.Sde.c90_type",
    "Verif.Sde.c90_not_type",
    "Verif.Sde.c90_priority",
    "Verif.Sde.c90_no_descriptor",
    "Verif.Sde.c90_add_desc",
    "Verif.Sde.c90_add_desc_refused",
    "Verif.Sde.c90_dims",
    "Verif.Sde.c90_get_dims",
    "Verif.Sde.c90_not_dims",
    "Verif.Sde.c90_add",
    "Verif.Sde.c90_add_taken",
    "Verif.Sde.c90_not_get",
    "Verif.Sde.c90_get",
    "Verif.Sde.c90_bitrate",
    "Verif.Sde.c90_bitrate_3gpp",
    "Verif.Sde.c90_unknown",
    "Verif.Sde.c90_new",
    "Verif.Sde.c90_not_new_error",
    "Verif.Sde.c90_not_new_info",
    "Verif.Sde.c90_not_new_memory",
    "Verif.Sde.c90_no_scale",
    "Verif.Sde.c90_general",
    "Verif.Sde.c90_h263",
    "Verif.Sde.c90_amr",
    "Verif.Sde.c90_amrwp",
    "Verif.Sde.c90_xml",
    "Verif.Sde.c90_text",
    "Verif.Sde.c90_not_priority",
    "Verif.Sde.c90_not_rate"
   ],
   "note": "Edits and new descriptions for all entries whose parts survive by themselves (C70, C49). Missing: the code frees blocks too early or loses errors, shown by c90_not_type, c90_not_get, c90_not_dims, c90_not_new_error, c90_not_new_info, c90_not_new_memory, c90_not_priority, c90_not_rate; what a failed edit leaves in the handle."
  },
  {
   "property": "C91",
   "status": "partial",
   "theorems": [
    "Verif.Mds.c91_enter",
    "Verif.Mds.c91_enter_refused",
    "Verif.Mds.c91_empty",
    "Verif.Mds.c91_history",
    "Verif.Mds.c91_file",
    "Verif.Mds.c91_description",
    "Verif.Mds.c91_outside",
    "Verif.Mds.c91_esd",
    "Verif.Mds.c91_no_esd",
    "Verif.Mds.c91_config",
    "Verif.Mds.c91_information",
    "Verif.Mds.c91_no_handle",
    "Verif.Mds.c91_not_cleared",
    "Verif.Mds.c91_not_written",
    "Verif.Mds.c91_new",
    "Verif.Mds.c91_by_time"
   ],
   "note": "Descriptions of C90 given with samples, asked for by number or time, and the decoder configuration in them. Partial: c91_not_cleared and c91_not_written show where values are left as they were; boxes of descriptions are those of C90."
  },
  {
   "property": "C92",
   "status": "partial",
   "theorems": [
    "Verif.TrackTime.c92_no_edits",
    "Verif.TrackTime.c92_segment_partial",
    "Verif.TrackTime.c92_following_segment",
    "Verif.TrackTime.c92_full_fails",
    "Verif.TrackTime.c92_empty_edit",
    "Verif.TrackTime.c92_offset_read",
    "Verif.TrackTime.c92_after_end",
    "Verif.TrackTime.c92_scales",
    "Verif.TrackTime.c92_edit",
    "Verif.TrackTime.c92_edit_refused"
   ],
   "note": "Proved for tracks without edits, for the last segment and for segments followed by short ones; that the segment playing at the time is used fails for a segment followed by one that is not shorter, and an empty edit is a read out of bounds (both proved). The headers of the movie and the media are present."
  },
  {
   "property": "C93",
   "status": "proved",
   "theorems": [
    "Verif.SampleRef.c93_queries",
    "Verif.SampleRef.c93_back",
    "Verif.SampleRef.c93_zero",
    "Verif.SampleRef.c93_past_end",
    "Verif.SampleRef.c93_offset_cut"
   ],
   "note": "Within the limits of C25 and C66 (media data below 4 GB and not empty, media time below 2^32, composition times not negative). Two further theorems show what is outside: numbers after the last sample and offsets from 4 GB on."
  },
  {
   "property": "C94",
   "status": "proved",
   "theorems": [
    "Verif.Cod.c94_avc",
    "Verif.Cod.c94_avc_kind",
    "Verif.Cod.c94_hevc",
    "Verif.Cod.c94_vvc",
    "Verif.Cod.c94_subpic",
    "Verif.Cod.c94_restricted",
    "Verif.Cod.c94_length",
    "Verif.Cod.c94_refused",
    "Verif.Cod.c94_not_length",
    "Verif.Cod.c94_missing",
    "Verif.Cod.c94_add_avc",
    "Verif.Cod.c94_add_vvc",
    "Verif.Cod.c94_new_avc",
    "Verif.Cod.c94_new_hevc",
    "Verif.Cod.c94_new_vvc",
    "Verif.Cod.c94_new_subpic",
    "Verif.Cod.c94_not_visual",
    "Verif.Cod.c94_made_avc"
   ],
   "note": "For entries that survive writing and reading (C70), with configurations whose fields fit (C55). A new description is about the configuration that the builder of C65 gives; c94_made_avc joins the two for H.264."
  },
  {
   "property": "C95",
   "status": "proved",
   "theorems": [
    "Verif.Grps.c95_history",
    "Verif.Grps.c95_results",
    "Verif.Grps.c95_asked",
    "Verif.Grps.c95_read",
    "Verif.Grps.c95_sound",
    "Verif.Grps.c95_merge",
    "Verif.Grps.c95_merge_all",
    "Verif.Grps.c95_calls_merged",
    "Verif.Grps.c95_not_auto",
    "Verif.Grps.c95_not_clean",
    "Verif.Grps.c95_not_local",
    "Verif.Grps.c95_not_long",
    "Verif.Grps.c95_not_error"
   ],
   "note": "The conditions on fragments are needed (c95_not_long, c95_not_error). SAMPLE_GROUP_AUTO is left out; c95_not_auto shows that it does not work. Refused calls are part of the calls, but they leave boxes behind (c95_not_clean)."
  },
  {
   "property": "C96",
   "status": "partial",
   "theorems": [
    "Verif.Attr.c96_results",
    "Verif.Attr.c96_history",
    "Verif.Attr.c96_last_partial",
    "Verif.Attr.c96_saved",
    "Verif.Attr.c96_not_tag",
    "Verif.Attr.c96_not_mode",
    "Verif.Attr.c96_not_header"
   ],
   "note": "Proved for all histories as the code does it (c96_history, c96_saved). The English claim fails for a second extended language (c96_not_tag) and modes over 16 bits (c96_not_mode)."
  },
  {
   "property": "C97",
   "status": "proved",
   "theorems": [
    "Verif.Subs.c97_history",
    "Verif.Subs.c97_new",
    "Verif.Subs.c97_asked",
    "Verif.Subs.c97_saved",
    "Verif.Subs.c97_not_all",
    "Verif.Subs.c97_not_empty",
    "Verif.Subs.c97_not_wide"
   ],
   "note": "c97_history, c97_new, c97_asked, c97_saved; limits of the code in c97_not_all, c97_not_empty, c97_not_wide."
  },
  {
   "property": "C98",
   "status": "partial",
   "theorems": [
    "Verif.AuxInfo.c98_count_partial",
    "Verif.AuxInfo.c98_not_listed",
    "Verif.AuxInfo.c98_none",
    "Verif.AuxInfo.c98_not_one",
    "Verif.AuxInfo.c98_not_five"
   ],
   "note": "The claim is disproved for every media with auxiliary information (c98_not_listed). Proved: the count up to 8 kinds (c98_count_partial), and media without any (c98_none)."
  },
  {
   "property": "C99",
   "status": "partial",
   "theorems": [
    "Verif.Defs.c99_first_last",
    "Verif.Defs.c99_same_partial",
    "Verif.Defs.c99_samples_partial",
    "Verif.Defs.c99_not_twice",
    "Verif.Defs.c99_not_late",
    "Verif.Defs.c99_none",
    "Verif.Defs.c99_not_time"
   ],
   "note": "For any calls the reader has the defaults of the first call for a track and the writer those of the last (c99_first_last). With one call for each track they are the same (c99_same_partial) and samples are read as they were put (c99_samples_partial). Disproved for two calls for a track (c99_not_twice), for calls in a fragment (c99_not_late), and for durations of media from 2^32 on (c99_not_time)."
  }
 ]
}
