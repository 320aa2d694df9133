# Formal model of libisomediafile (MPEGGroup/isobmff) in Lean 4

This file is the plan and the trusted-base statement. `properties.jsonl` lists the
properties, `MANIFEST.json` the theorem names, `lean/Verif` the model and proofs,
`seeded/LOG.jsonl` the wrong-program experiments.

## Layout

* `Verif/Core/*` - result type with an explicit undefined-behaviour outcome, fixed-width
  arithmetic helpers, byte codecs, the PUT (writer) and GET (parser) macro layers.
* `Verif/Model/*` - the code, function by function; every definition cites the C file and lines.
* `Verif/Spec/*` - small, independent specifications (per-sample lists, abstract state).
* `Verif/Lemmas/*` - helper lemmas.
* `Verif/Props/*` - the property theorems, with non-trivial satisfying examples beside them,
  and the witnesses for the places where the code violates the property.

## Trusted base

* Lean 4.33.0 kernel. No axioms are added; theorems depend at most on `propext`,
  `Classical.choice`, `Quot.sound`. No `sorry`, `admit`, `native_decide`, `bv_decide`,
  `implemented_by`, `unsafe`.
* The hand translation of the C text in /repo into `Verif/Model` (checked only by reading).
* C semantics assumed: two's complement, `u32`/`u64` wrap modulo 2^32/2^64, `int` 32 bit,
  allocation succeeds unless stated.

## Conventions

* `u32`/`u64` values are `Nat` with explicit reduction (`w32`, `w64`) wherever the C code can wrap.
* Operations the C standard leaves undefined (out-of-bounds access, division by zero,
  use of an uninitialised result) give the outcome `ub`.
* `MP4LinkedList` is used by other atoms through its abstract sequence behaviour, justified by C01.

## Plan per property

* **C01 The internal list behaves as a plain sequence** - Model list nodes as a Lean list plus the cursor (number, suffix); refinement to a plain list, invariant: cursor suffix = drop of the list. Induction over operation sequences.
* **C02 Handles keep their contents and stay inside their allocation** - Model handle as allocated block + size + offset with UB outcome for writes beyond the block; invariant allocated+offset = block length, size <= allocated. Self-concatenation is a witness that distinctness is needed.
* **C03 Integers written to a box are read back unchanged** - Model PUT/GET macros on byte lists; arithmetic round-trip for each width.
* **C04 A serializer never writes beyond the size the box declared** - Writer state machine (bytesWritten,size,out); induction over arbitrary list of PUT operations.
* **C05 Decoding time and duration of a sample do not depend on earlier queries** - Model table + cache (time, sample number, entry); invariant on the cache = prefix sums; induction over query histories.
* **C06 Durations given when samples are added are the durations of those samples** - Model add/extend; expansion of run-length table into per-sample list; induction over histories.
* **C07 The time-to-sample table survives being written and parsed** - Writer/parser round trip, size formula; induction over entries.
* **C08 Time to sample number picks the sample playing at that time** - Model the search loop; half-open interval characterisation by expansion.
* **C09 Every sample is mapped to the right chunk** - Model lookup with cache; expansion of runs into per-chunk list; invariant on the cache.
* **C10 Every sample is mapped to the sample description of its chunk** - Same model; the code returns the previous run's index for the first sample of a run: prove negation witness and the partial claim for all other samples.
* **C11 Recording chunks keeps one table entry per change and survives a write/parse cycle** - Model setEntry/serialize/parse; expansion and no-adjacent-equal invariant.
* **C12 Sample sizes and in-chunk offsets are those that were added** - Model the two representations; invariant relating both to the per-sample list.
* **C13 Sample sizes survive being written and parsed in every field width** - Writer/parser for 32/16/8/4 bit; nibble pairs by two-step induction.
* **C14 Chunk offsets survive being written and parsed, using 64-bit only when needed** - Width choice and round trip by induction.
* **C15 Relocating media data moves exactly the chunks inside it and can be undone** - List map; algebra on 64-bit wrap.
* **C16 Sync sample answers match what was declared when adding samples** - Model lazy creation and lookup; the NULL-handle case is wrong in the code (witness), partial theorem.
* **C17 Composition offsets belong to the sample they were given for** - Model lazy creation; the code does not pad when the first offsets arrive late (witness), partial theorem.
* **C18 The edit list survives being written and parsed** - Writer/parser round trip with two's-complement fields.
* **C19 Padding bits survive being added, written and parsed** - Model nibble packing; round trip and history invariant.
* **C20 Sample dependency flags survive being set, written and parsed** - Array update semantic, round trip; UB outcome for out-of-range negative index.
* **C21 Sample group descriptions keep the index they were given** - History invariant Nodup + nonempty; stability of indices.
* **C22 Sample-to-group mapping survives run-length writing and parsing** - Array semantic plus run-length coder round trip.
* **C23 Compact sample-to-group coding is lossless** - Model the optimiser over a tracker array; correctness invariant: every tracker slot's chain of patterns expands to the suffix; independent of cost values.
* **C24 Reading sample data never reads outside the media data** - Decision logic with 64-bit wrap; slice specification.
* **C25 What is added as sample n is what is read as sample n** - Compose the sample-table models and the data store; invariant over add histories.
* **C26 Chunk offsets in a written file point at the chunk's bytes** - File = prefix ++ movie box ++ mdat header ++ data; offset arithmetic.
* **C27 Files with several media data boxes read back the right bytes** - Induction over the list of media data boxes with the relocation function of C15.
* **C28 Fragment defaults never change a sample's properties** - Model defaults selection, flag computation, per-sample elision, parse and merge; induction over samples and runs.
* **C29 Fragment sequence numbers increase and are checked** - Fold over fragments; strict monotonicity.
* **C30 Descriptor headers carry any length below 2^28** - 7-bit group coding, round trip.
* **C31 Media language codes are returned as set** - Bit-field arithmetic over full ranges.
* **C32 A parsed container accounts for every byte exactly once** - Parser accounting by induction on fuel = remaining bytes, in both directions: a stream is read exactly when it starts with boxes that fit. Tree round trip by structural induction. Fails for streams of 4 GB and more: negative theorem and partial theorems.
* **C33 Track identifiers in a movie are unique** - History invariant; fails at ID 0xFFFFFFFF (wrap of the next ID): witness and partial theorem.
* **C34 Metadata item identifiers are unique** - History invariant; requestItemID loses the error when a duplicate is found (err is MP4NoErr at that point): witness and partial theorem.
* **C35 Item locations survive being written and parsed** - Width selection plus nested round trip.
* **C36 Property associations survive being written and parsed** - 8-bit form round-trips; 16-bit form loses the essential flag: witness and partial theorem.
* **C37 Segment indexes survive being written and parsed** - The parse loop bound grows with every reference: prove that parsing any non-empty index fails; partial: empty index.
* **C38 User data items are retrievable by type and index** - Two-level association list; refinement to a function type -> list.
* **C39 Track references are kept without duplicates** - History invariant Nodup; round trip.
* **C40 Auxiliary information sizes survive merging and writing** - Representation function to per-sample list; merge = append.
* **C41 Sub-sample information survives being written and parsed** - Round trip; version selection invariant over histories.
* **C42 Reading a track without edits yields every sample once, in order, then end of file** - Iterate reader; induction over calls.
* **C43 The media data box header declares the real size** - Size arithmetic with wrap; fails for 8 sizes below 2^32: witness and partial theorem.
* **C44 Track and media headers survive being written and parsed** - Straight-line round trip of both versions.
* **C45 to C51** were split off C18, C21, C22, C30 and others while the model grew; see properties.jsonl.
* **C52 Data added to a metadata item is read back** - Invariant: the extents are slices of the store; fails for all but the first item in the media data box: general negative theorem and partial theorem.
* **C53 Reading a track with edits yields the samples of each edit, in order, then end of file** - The reader is described by the list of what is left; each call removes the first element. Fails for a list that ends with an empty edit: negative theorem and partial theorem.
* **C54 Merging the fragments of a track gives their samples, in order** - One invariant per table, indexed by the runs merged so far; induction over runs, then fragments; the query is then the one of C09/C25. Fails in seven ways: negative theorems and a partial theorem.
* **C55 Parameter sets of a decoder configuration are returned as added** - Each configuration box (AVC, HEVC, VVC) round-trips under `Fits`; a run of additions through the stored box (parse, add, write) is shown, by induction over the additions, to hold the configuration with the sets of each kind appended. HEVC and VVC lose or refuse some sets: negative theorems, partial theorems, and for HEVC an exact characterisation of what is returned.
* **C56 Fragments written to a file are found again with their data** - Invariant of the state while a fragment is made: it is a function of the calls so far (`stOf`); the move of the data places is a change of the base in each header; writing and reading of the fragment box from C28 and C29; then induction over the fragments, with the bytes written so far as a parameter. Fails for padding, long times, empty calls and files from 2 GB: negative theorems and a partial theorem.
* **C57 Fragments by any writer are understood as the standard says** - Bytes and meaning of a fragment are specified apart from the model (Spec/Conform); for all fragments in range what the code finds is computed exactly, and compared with the meaning by induction over the track fragments. Fails for runs without offset behind another, for bases taken from a track fragment with two runs, and behind 4 GB: negative theorems and a partial theorem; no condition but offsets for bases at the fragment box.
* **C58 Samples added in fragments are reported after opening the file** - C56 and C54 put together: the loop over the boxes of the file finds the fragments written (C56), their track fragments are runs in the sense of C54 (`pieceOf`), and the invariant of C54 is carried for every track at once through all fragments, by induction over the fragments and over the tracks in each. Fails as C54 does: negative theorems on files that were written, and a partial theorem.
* **C59 Item information** - the list of entries stands for a list of records, one for each `ISOSetItemInfo`; by induction over the calls the last record of an item holds what is known of it (`known`), so the queries answer from that. Then the entries are written as in the specification, and reading is its inverse. Fails for content types, extension types and long names: negative theorems, and a partial theorem for the file.
* **C60 References between items** - by induction over the calls the list of boxes is one box for each item and type, in the order of the first calls, with all references (`after`); queries and the layout follow. Boxes of version 1 are read by induction over the lists. Version 0, the only one the library makes, cannot be read: a general negative theorem, and a partial theorem for version 1.
* **C61 Entity groups** - the list of boxes is the list of groups of the specification, by induction over the calls, with the IDs distinct as an invariant; the layout and the reader as for C60.
* **C62 Brands** - the state after a sequence of calls is computed by induction, from any state; the list of brands is then compared with the brands named by the calls without repetitions. The file by the combinators.
* **C63 Auxiliary information** - a representation invariant on top of that of C25: each kind keeps the place and bytes of its pieces, and the pieces lie in the media data where the offsets say; every call keeps it. Histories interleave samples, other tracks' data, kinds and reads. The box with the offsets by the combinators. Partial: writing such a media reads out of bounds.
* **C64 Bits of parameter sets** - a simulation: the reader's byte, position and zero count represent the bits that are left; every read keeps it, and the removal of emulation prevention bytes is undone inside it. A parameter set is any list of fields. Partial: the end of the bits is not noticed.
* **C65 Decoder configurations** - the syntax tables of H.264, H.265 and H.266 as bit lists in the specification, with any values; the model reads such a list and builds the configuration. Alignment is followed by the number of bits read. Partial: H.264 with chroma format 3, H.265 fields that are dropped, H.266 with constraints or sub-profiles.

* **C66** samples by time (Model/ByTime, Lemmas/ByTime, Props/C66). `findSamples` gives besides the sample number three times
  (before, at, after). C08 says which sample is found; here three more loop lemmas say what happens at the end, after the end,
  and which three times come out inside a run. Then `Rep.locate` of C25 finds the bytes. Partial.
* **C67** composition to decode (Model/Cslg, Props/C67). The invariant relates the box to the list of durations and offsets
  so far; the initial INT_MAX and INT_MIN are treated as extra elements of the lists whose minimum and maximum are kept,
  and removed at the end. The tables that `addSamples` updates in the same call (stts, ctts) are carried along.
* **C68** boxes with fixed fields (Model/Rows, Props/C68): one round trip each, by the combinators for straight-line
  writers and parsers. Version 1 of pitm and prft fails, stated for all values.
* **C69** boxes that end with a string (Model/Strings, Lemmas/Strings, Props/C69): a `char *` is a buffer of the
  bytes allocated for it, `strlen` and `%s` need a NUL in it. Round trips for texts without NUL; the cases that the
  code gets wrong are each a theorem over all strings of that kind.
* **C70** sample entries (Model/Entries, Lemmas/Entries, Props/C70): the boxes in an entry are of a class given as a
  parameter (reader, size, writer), and a `Family` is a list of boxes that each survive by themselves. Each class of
  entries maps families to boxes that survive, so the sample description box follows from the same theorem one
  level up. The loops over boxes are by induction over the family.
* **C71** protected and restricted entries (Model/Protect, Spec/Protect, Lemmas/Protect, Props/C71): the classes of C70
  with the protection box `sinf` (and `rinf`) as one more class, whose parts are `frma`, `schm`, `schi` of C68 and C69.
  `Writes` and `Reads` split the survival of C70, as a scheme without an address comes back with other flags. Protecting
  is parse, edit, write; the round trip is composed from the two bytes-level theorems on `clear` and `locked` entries.
* **C72** channel layout, downmix and loudness (Model/Sound, Spec/Sound, Lemmas/Sound, Props/C72): the loops
  `while(bytesRead < size)` are bounded by the bytes that are left, and a lemma for lists of chunks of any length gives what
  they read. Stores of four bytes into a smaller field at the end of a block depend on a parameter `room`.
* **C73** boxed metadata (Model/Mebx, Spec/Mebx, Lemmas/Mebx, Props/C73): the classes of C70 are instantiated for the table
  of keys; a row of the table is what a caller gives and gets. Requests are placed by the first free number, and a session of
  any requests gives the table of their rows. A sample is a list of boxes.
* **C74** object descriptors (Model/Od, Spec/Od, Lemmas/Od, Props/C74): one writer lemma and one loop lemma for lists of
  descriptors (`emits_all`, `parsesAt_all`), used for the object descriptor, the initial object descriptor and both update
  commands; what the loop collects is the fold of `odInsert`, which puts each descriptor back in its list because the writer
  writes one list after the other. `readAny`/`readCmd` state what is read where it is not the same.
* **C75** object descriptor streams (Model/OdFrame, Spec/OdFrame, Lemmas/OdFrame, Props/C75): adding is a state monad over the
  track reference; `outs` lists what steps give that number their streams one after the other (`each_gives`), and looking the
  numbers up in any longer reference undoes it (`eachRes_outs`). Frames are then an induction over commands, streams of frames
  one over frames.
* **C76** a movie's initial object descriptor (Model/Iods, Spec/Iods, Lemmas/Iods, Props/C76): the box is a descriptor of
  either class with its tag, and a flag for the list that is taken away while the descriptor is given out. A session of any steps
  from creation on keeps the invariant `grown`; what is given is C75's description of each track, written by C74's writers.
* **C77** track groups (Model/Tgrp, Props/C77): as C39, a history of calls is compared with a list of the IDs given for each type;
  writing and reading keep the list. Groups with bytes after the ID are a separate layout, of which the parser keeps the head.
* **C78** the subsegment index (Model/Ssix, Props/C78): tables of ranges; reading is exact, writing is characterised: `mangled` is
  what is written, `Reach` says when anything is, `Plain` when it is what was read.
* **C79** boxes of JPEG 2000, H.263 and stereo video (Model/Jp2, Props/C79): the byte order of the machine is a parameter; what is
  written is given as the standard's layout of other values (`turned`), so that writing is right exactly for the values that are
  their own image.
* **C80** protection of items (Model/Ipro, Props/C80): a history of calls is compared with a list of protections; writing and reading
  in another program gives the same answers (`c80_saved`).
* **C81** durations of tracks and movies (Model/Duration, Props/C81): any history of adding samples, ending edits and asking, over any
  number of tracks, is compared with the samples that were counted (`c81_history_partial`); inserting media and offsets.
* **C82** edits made for fragments (Model/Duration, Props/C82): any number of fragments merged into a track gives one segment each
  (`c82_edits_partial`); tracks without edits (`c82_plain`); empty fragments (`c82_gap`).
* **C83** meta boxes of files, movies and tracks (Model/MetaBox, Props/C83): any boxes in a meta box (`c83_round_trip`, `c83_read`,
  `c83_twice`), QuickTime meta boxes (`c83_quicktime`), any history of data and primary items, in memory (`c83_data`) and in files
  (`c83_saved`), any history of new meta boxes (`c83_history`, `c83_find_partial`), the container (`c83_container`).
* **C84** data of items in files (Model/ItemFile, Spec/ItemFile, Props/C84): items in merged media data boxes, in the item data box and
  made of other items to any depth (`c84_open_partial`, `c84_deeper`), histories of `ISOAddItemExtentItem` (`c84_made_of_items`),
  writing and opening again (`c84_reopened`).
* **C85** opening whole files (Model/OpenFile, Spec/OpenFile, Props/C85): the loop over the boxes of a file in any order
  (`c85_boxes`, `c85_to_the_end`, `c85_opens`, with fragments `c85_fragments`, `c85_sequence`), what is refused (`c85_twice`, `c85_neither`, `c85_damaged`, `c85_empty`), and for any file
  that opens, the data of its tracks and items (`c85_data_of_file`, `c85_tracks_partial`, `c85_items_partial`, which join C27 and C84).
* **C86** samples and items in other files and in files opened in place (Model/Handler, Spec/Handler, Props/C86): the path of a data reference
  through the buffers of a handle (`c86_path`, `c86_directory`, `c86_beside`), the handler a track keeps between reads as a state machine
  (`c86_reads_partial`), and that of a meta box (`c86_items_alone`, `c86_items_partial`, `c86_whole_file`, `c86_items_missing`).
* **C87** input streams (Model/Stream, Spec/Stream, Lemmas/Stream, Props/C87): the counters, pointers and blocks of the streams over files and memory
  refine a place in a list of bytes, for any list of calls (`c87_file`, `c87_memory_partial`) and for any reading function, which so gives
  what it gives on the `PS` of Core/Codec (`c87_parsers_file`, `c87_parsers_memory`). This closes the step between the C streams and the
  list of bytes that all other models of reading functions start from.
* **C88** the mapping object of macOS, a window on a file (Model/Stream, Props/C88): any list of reads (`c88_reads_partial`), streams and reading
  functions over it (`c88_stream_partial`, `c88_parsers_partial`).
* **C89** tools of IPMP extensions (Model/Ipmp, Spec/Ipmp, Lemmas/Ipmp, Props/C89): round trips of tools, lists, data, initialisations, tool descriptors
  and the update command, and what lists of calls on handles build (`c89_list_built`, `c89_init_built`, `c89_desc_built`,
  `c89_update_built`, `c89_urls_partial`).
* **C90** sample descriptions in handles (Model/SampleDesc, Spec/SampleDesc, Lemmas/SampleDesc, Props/C90): new descriptions
  (`c90_new`, `c90_general`, `c90_h263`, `c90_amr`, `c90_amrwp`, `c90_xml`, `c90_text`) and edits that change one thing
  (`c90_type`, `c90_priority`, `c90_add_desc`, `c90_dims`, `c90_add`, `c90_bitrate`), on the entries of C70 and the descriptors of C49.
* **C91** the descriptions of a media (Model/MediaDesc, Spec/MediaDesc, Lemmas/MediaDesc, Props/C91): whatever descriptions are given with
  samples, they are there by number (`c91_history`, `c91_description`, `c91_file`), and the decoder configuration asked from the media is that
  of the description (`c91_esd`, `c91_config`, `c91_information`), from `MP4NewSampleDescription` on (`c91_new`); `c91_by_time` ties the
  description by time to the sample of C66.
* **C92** the media time at a track time, and the edits of a track by number (Model/TrackTime, Props/C92): the time is that of the segment,
  in whole seconds, for the last segment and for those followed by short ones (`c92_segment_partial`); otherwise it is not
  (`c92_following_segment`, `c92_full_fails`, `c92_empty_edit`).
* **C93** all ways to ask for a sample of a media agree (Model/SampleRef, Props/C93): its times, its place in the media data, the sample by number
  and the sample by time, in any order and number of calls (`c93_queries`, an invariant over the caches of the tables); the time of a sample leads
  back to it (`c93_back`).
* **C94** decoder configurations in whole sample entries (Model/CodecDesc, Props/C94): entries of H.264, H.265 and H.266 as handles, with any other
  boxes around the configuration: every parameter set, the counts and the length of the NAL unit sizes (`c94_avc`, `c94_hevc`, `c94_vvc`,
  `c94_subpic`, `c94_restricted`, `c94_length`), errors (`c94_refused`, `c94_missing`), sets added one after the other (`c94_add_avc`,
  `c94_add_vvc`), and new descriptions (`c94_new_*`), for H.264 from the bits of the sequence set on (`c94_made_avc`).
* **C95** sample groups of all types of a track (Model/Groups, Props/C95): any calls, in a movie or a fragment, for any types keep the boxes in
  step with the groups (`c95_history`, `c95_sound`), results and answers (`c95_results`, `c95_asked`, `c95_read`), and merging of fragments: every sample
  has for every type the description it had in the fragment, and no other sample changes (`c95_merge`, `c95_merge_all`), also from the calls that
  made the fragment on (`c95_calls_merged`).
* **C96** attributes of a media (Model/MediaAttr, Props/C96): language, extended language, graphics mode and sound balance through any calls on a
  media of any handler (`c96_results`, `c96_history`, `c96_last_partial`) and through writing and reading (`c96_saved`).
* **C97** sub-sample information of a track (Model/SubsTrack, Props/C97): any calls that make sets, set flags and add entries in any order
  (`c97_history`, `c97_new`), the answer of the getter (`c97_asked`), writing and reading of all sets (`c97_saved`); on top of the box of C41.
* **C98** listing the kinds of sample auxiliary information (Model/AuxList, Props/C98): disproved for every media that has some (`c98_not_listed`); the
  count is right up to 8 kinds (`c98_count_partial`), and all is well without any (`c98_none`).
* **C99** defaults for the fragments of tracks (Model/Defaults, Spec/Defaults, Props/C99): the reader goes by the first call for a track, the writer
  by the last (`c99_first_last`), so they agree with one call for each track (`c99_same_partial`, `c99_samples_partial` with C28), and not
  with two (`c99_not_twice`).
* **C100** how a movie and its tracks are to be shown (Model/Display, Spec/Display, Props/C100): any calls that add tracks and set matrices, rate, volumes,
  time scale, layers, dimensions and whether tracks are enabled, with the movie written and read any number of times in between, against
  a record of what was set last (`c100_last_set_partial`, by C44); dimensions from 2^16 on are lost (`c100_not_wide`, `c100_not_high`).
* **C101** what is told about items (Model/ItemAsk, Spec/ItemAsk, Props/C101): on the records of C59; the question for all information finds the
  oldest record and agrees with what is known if there is one record for each item (`c101_info_partial`, `c101_file_partial`); the items of a type are
  a filter of the located items if all of them have types (`c101_types_partial`).
* **C102** user data through files (Model/UserFile, Spec/UserFile, Props/C102): the records of C38 have distinct types and bounded weight (an invariant
  of the calls); reading puts the boxes into records again, which gives the records that are not empty; so the items of each type pass any number of
  files between the calls (`c102_items_partial`), and the box is known (`c102_box_partial`).
* **C103** item properties through files (Model/Iprp, Spec/Iprp, Props/C103): the association table that the calls of C51 make is known in closed
  form (`added_eq`); the box of C36 carries it; the item properties box with its pointers returns as the same box with one more empty container,
  so the properties of the items pass any number of files between the calls.
* **C104** items that are ranges of files (Model/ItemRange, Spec/ItemRange, Props/C104): the item that the calls make is known in closed form
  (`make_eq`), its extents are read with the handlers of C86, and its location box is that of C35.
* **C105** boxes of the caller (Model/Foreign, Spec/Foreign, Props/C105): boxes with any type that the library has no class for and `uuid` boxes,
  written, read and asked for, any number of times; by an invariant that relates each box to what was asked for (`Is`). `c105_inside` makes them boxes for the theorems of C70
  and others, which are for boxes of any classes.
* **C106** the primary data of a meta box or else its primary item (Model/Primary, Props/C106): the history of what was given is that of C83, the
  items are read as in C86.

## What is modelled

All files are in `/repo/IsoLib/libisomediafile/src`; line numbers are in the definitions.

| Lean module | C code |
|---|---|
| Core/Basic, Core/Codec, Core/Box | MP4Impl.h `PUT*`/`GET*` macros, MP4MemoryInputStream.c, box header parsing and writing in MP4Atoms.c |
| Core/Mem | `realloc`, indexed load and store, `memcpy` on an allocated block |
| Model/LinkedList, Model/Handle | MP4LinkedList.c, MP4Handle.c |
| Model/Stts, Stsz, Stsc, Stco, Stss, Ctts | TimeToSampleAtom.c, SampleSizeAtom.c, SampleToChunkAtom.c, ChunkOffsetAtom.c, SyncSampleAtom.c, DecodingOffsetAtom.c |
| Model/Elst, Padb, Sdtp | EditListAtom.c (not `getTimeAndTrackStartTime`), PaddingBitsAtom.c, SampleDependencyAtom.c |
| Model/Sgpd, Sbgp, Csgp | SampleGroupDescriptionAtom.c, SampleToGroupAtom.c (plain and compact form) |
| Model/Mdat | MediaDataAtom.c, MdatDataHandler.c |
| Model/Media | adding samples (MP4Media.c, MediaInformationAtom.c, SampleTableAtom.c) and reading one by number |
| Model/Movie | MP4MovieFile.c writing, `mdatMoved` of movie and tracks, `MergeMovieData` |
| Model/Headers | MovieHeaderAtom.c, TrackHeaderAtom.c, MediaHeaderAtom.c, `MP4SetMediaLanguage`, `MP4GetMediaLanguage` |
| Model/Descr | BaseDescriptor.c, MP4Descriptors.c `MP4ParseDescriptor`, MP4DefaultDescriptor.c, MP4DecoderConfigDescriptor.c, SLConfigDescriptor.c, MP4ESDescriptor.c, MP4IPMPDescriptorPointer.c (tag 0x0A), ESDAtom.c |
| Model/Subs | SubSampleInformationAtom.c (all) |
| Model/Saiz | SampleAuxiliaryInformationSizesAtom.c (all) |
| Model/Tref | TrackReferenceTypeAtom.c, TrackReferenceAtom.c, MovieTracks.c `MP4AddTrackReferenceWithID`, `MP4GetTrackReference` (up to the track ID), `MP4GetTrackReferenceCount` |
| Model/Iloc | ItemLocationAtom.c `calculateSize`, `serialize`, `createFromInputStream` |
| Model/Ipma | ItemPropertyAssociationAtom.c (all), ItemPropertiesAtom.c `addItemProperty`, `getPropertiesOfItem` with an association box present (it is NULL before the first property is added, and `getPropertiesOfItem` then reads through the null pointer) |
| Model/Sidx | SegmentIndexAtom.c (all) |
| Model/Meta | ISOMeta.c `requestItemID`, `ISOAddMetaItem`, `ISOAddMetaItemWithID`, `ISOAddItemExtent`, `ISOAddItemExtentUsingItemData`, `ISOGetItemData`, `ISOFindItemByID`; ItemDataAtom.c `getData`. Not: items in other files, items made of items |
| Model/Tracks | MovieAtom.c `requestTrackID`, `newTrackWithID`, `newTrack`; `MP4GetMovieTrack` |
| Model/FragSeq | MovieFragmentHeaderAtom.c, the numbering in `ISOStartMovieFragment`, the loop of `MergeMovieFragments` |
| Model/UserData | UserDataAtom.c and MP4UserData.c, without reading and writing |
| Model/Reader | MP4OrdinaryTrackReader.c `getNextSegment`, `setupReader`, `getNextAccessUnit` and MP4Media.c `MP4GetIndMediaSampleWithPad`. Not: object descriptor and `mebx` tracks, `getNextPacket` |
| Model/Tree | MP4Impl.h `PARSE_ATOM_INCLUDES`, `PARSE_ATOM_LIST`, `ADD_ATOM_LIST_SIZE`, `SERIALIZE_ATOM_LIST`, UnknownAtom.c, FreeSpaceAtom.c, `addAtom` of EditAtom.c, DataInformationAtom.c, SchemeInfoAtom.c, ItemPropertyContainerAtom.c, MJ2HeaderAtom.c, RestrictedSchemeInfoAtom.c, MovieAtom.c, TrackAtom.c, MediaAtom.c, MediaInformationAtom.c. Not: `stbl`, `moof`, `traf`, `mvex`, `sinf`, `meco` as containers; boxes of other classes are their bytes here |
| Model/Traf | TrackFragmentAtom.c `addAtom`, `calculateSize`, `serialize`, `createFromInputStream`, the loop over the runs in `mergeRuns`; TrackFragmentHeaderAtom.c, TrackFragmentDecodeTimeAtom.c, TrackFragmentRunAtom.c; the defaults in `mergeFragments` of MovieFragmentAtom.c. Not: adding samples to a fragment, groups, auxiliary information and dependencies in fragments, `calculateDataEnd`, the call of `addSampleReference` (Model/Batch etc. model its callees) |
| Model/Merge | MovieFragmentAtom.c `mergeFragments` 157-190 (decode time, runs), TrackFragmentAtom.c `mergeRuns`, MediaInformationAtom.c `addSampleReference`, SampleTableAtom.c `addSamples`, `setDefaultSampleEntry`, `setSampleDependency`, and the table queries of `MP4GetIndMediaSampleWithPad`. Not: groups, auxiliary information, signed composition offsets, edits for an empty duration |
| Model/Config | VCConfigAtom.c, HEVCConfigAtom.c, VVCConfigAtom.c, VVCNALUConfigAtom.c; from ISOSampleDescriptions.c the functions that add and get parameter sets through the stored configuration. Not: the sample entries around the boxes |
| Model/FragFile | TrackFragmentAtom.c `addSamples`, `mdatMoved`, `calculateDataEnd`; MovieFragmentAtom.c `addAtom`, `calculateSize`, `serialize`, `createFromInputStream`, the data places in `mergeFragments`; MovieExtendsAtom.c `maketrackfragments`; MP4MovieFile.c `ISOStartMovieFragment`, `ISOAddDelayToTrackFragmentDecodeTime` and writing of a fragment with its data. Not: samples added by reference, groups, auxiliary information, `meta` and `mfra` in fragments, dependencies |
| Model/FragOpen | MP4Movies.c `parseMovie` (the loop over the boxes), `MergeMovieFragments`; MovieFragmentAtom.c `mergeFragments` over all track fragments and tracks. Not: the edit list and the durations computed afterwards; other boxes of the file are skipped |
| Model/Iinf | ItemInfoEntryAtom.c, ItemInfoAtom.c; ISOMeta.c `ISOSetItemInfo`, `ISOSetItemInfoExtension`, `ISOGetItemInfoExtension`, `ISOSetItemInfoItemType`, `ISOGetItemInfoItemType`, `ISOHideItem`, `ISOIsItemHidden`, `ISOFindItemByName` (exact case). The host is little-endian |
| Model/Iref | SingleItemTypeReferenceAtom.c, ItemReferenceAtom.c; ISOMeta.c `ISOAddItemReference`, `ISOAddItemReferences`, `ISOGetItemReferences`, `ISOGetItemReference` up to the lookup of the ID |
| Model/Grpl | EntityToGroupBox.c, GroupsListBox.c; ISOMeta.c `ISONewEntityGroup`, `ISOAddEntityIDToGroup`, `ISOGetEntityIDCnt`, `ISOGetEntityGroupEntries` |
| Model/Brand | MJ2FileTypeAtom.c, SegmentTypeAtom.c, TrackTypeAtom.c; MP4Movies.c `ISOSetMovieBrand`, `ISOSetMovieCompatibleBrand`, `ISOGetMovieBrand`, `ISOIsMovieCompatibleBrand` with a file type box present |
| Model/Saio | SampleAuxiliaryInformationOffsetsAtom.c: all of it but `additionalOffset`, which nothing sets |
| Model/AuxInfo | MP4Media.c 2192-2335 and 2397-2475 (not the fragment branch), SampleTableAtom.c 806-845, MediaInformationAtom.c 731-738, TrackFragmentAtom.c 677-717 |
| Model/BitReader, Spec/Bits | ISOSampleDescriptions.c 835-986: `BitBuffer`, `GetBits`, `GetBytes`, `read_golomb_uev` |
| Model/ParamSet, Spec/ParamSet | ISOSampleDescriptions.c: from `ISONewAVCSampleDescription`, `ISONewHEVCSampleDescription` and `ISONewVVCSampleDescription` the reading of the parameter sets and the configuration made. Not: the visual sample entry around it |
| Model/ByTime | `MP4GetMediaSampleWithPad`, the time of `MP4GetMediaNextInterestingTime`, `MP4GetElementaryStreamPacket` for tracks that are not object descriptor streams |
| Model/Cslg | CompositionToDecodeAtom.c; the parts of `addSamples` in SampleTableAtom.c about times; `setCompositionToDecodeProperties` and `getTrackExtensionPropertiesAtom` in MovieExtendsAtom.c |
| Model/Rows | serializers and parsers of vmhd, smhd, hmhd, trex, prft, frma, btrt, bitr, pcmC, damr, dawp, iSFM, iSLT, mere, pitm, stsh, stdp |
| Model/Strings | serializers and parsers of cprt, elng, iKMS, schm, csch, hdlr (with `setName`), url, urn, dref (`getEntry`); `MP4AddMediaDataReference`, `MP4GetMediaDataReference` |
| Model/Entries | the classes of sample entries (mp4s, haptic, volumetric, visual, restricted, encv, audio, enca, mebx, generic, mett, metx), the choice of the class by the type, `GETATOM_LIST`, stsd (`getEntry`); the class of the boxes in an entry is a parameter |
| Model/Protect | the functions of protected and restricted entries (EncAudioSampleEntryAtom.c 152-368, RestrictedVideoSampleEntry.c 154-260, 300-421), sinf, rinf, schi, ISMASecurity.c, `ISOGetRESVOriginalFormat`, `ISOGetRESVSchemeType`, `ISOGetRESVSchemeInfoAtom` |
| Model/Sound | serializers and parsers of chnl, dmix, tlou, alou, ludt, the sizes, `addAtom` of ludt |
| Model/Mebx | keys, keyd, loca, setu and key boxes, the interface for boxed metadata entries, the demultiplexing of samples |
| Model/Od | MP4ObjectDescriptor.c, MP4InitialObjectDescriptor.c, MP4ES_ID_IncDescriptor.c, MP4ES_ID_RefDescriptor.c, MP4Descriptors.c, MP4Commands.c, ODUpdateCommand.c, ESUpdateCommand.c, MP4DefaultCommand.c, ObjectDescriptorAtom.c (not: IPMP tools, object descriptors in object descriptors, the IPMP command) |
| Model/OdFrame | MediaAtom.c (MP4ParseODFrame, storeIPMPDescriptorPointers, addSamples for object descriptor tracks), MP4SLPacket.c (rewriteODFrame, rewriteIPMPDescriptorPointers), MP4Movies.c (makeESD) |
| Model/Iods | MP4Movies.c (MP4NewMovieExt for the iods box, the inline flag, profiles, MP4GetMovieInitialObjectDescriptorUsingSLConfig, MP4GetMovieObjectDescriptorUsingSLConfig, MP4MovieAddTrackES_IDToIOD, MP4AddDescToMovieIOD, MP4MovieCreateDescriptors), MovieTracks.c (MP4AddTrackToMovieIOD) |
| Model/Tgrp | TrackGroupTypeAtom.c, TrackGroupAtom.c, MovieTracks.c (MP4AddTrackGroup, MP4GetTrackGroup), StereoVideoGroupAtom.c, the group given to object descriptor tracks in MediaAtom.c |
| Model/Ssix | SubsegmentIndexAtom.c |
| Model/Jp2 | MJ2SignatureAtom.c, MJ2ImageHeaderAtom.c, MJ2BitsPerComponentAtom.c, MJ2ColorSpecificationAtom.c, H263SpecificInfoAtom.c, StereoVideoAtom.c |
| Model/Ipro | ItemProtectionAtom.c; ISOMeta.c `ISONewMetaProtection`, `ISOAddMetaProtectionInfo`, `ISOGetMetaProtection`, `ISOGetMetaProtectionInfo` |
| Model/Duration | MediaAtom.c, TrackAtom.c 86-219, MovieAtom.c 499-534: `calculateDuration`; EditAtom.c 47-60; MovieTracks.c `MP4GetTrackDuration`, `MP4InsertMediaIntoTrack`, `MP4SetTrackOffset`, `MP4GetTrackOffset`; MP4Movies.c `MP4GetMovieDuration`; MovieFragmentAtom.c 154-204 (durations and edits) |
| Model/MetaBox | MetaAtom.c (not data handlers and media data), AdditionalMetaDataContainerAtom.c, UnknownAtom.c; ISOMeta.c `newMeta`, `ISONewFileMeta`, `ISONewMovieMeta`, `ISONewTrackMeta`, `ISOAddMetaBoxRelation`, `ISOGetMetaBoxRelation`, `ISOAddPrimaryData`, `ISOGetPrimaryData`, `ISOSetPrimaryItem`, `ISOGetPrimaryItemID`, `ISOGetFileMeta`, `ISOGetMovieMeta`, `ISOGetTrackMeta` |
| Model/ItemFile | ItemLocationAtom.c `mdatMoved`; MP4MovieFile.c 120-147, 218-246 and MP4Movies.c `MergeMovieData` for items; ISOMeta.c `ISOAddItemExtentItem`, `ISOGetItemData` (not other files) |
| Model/OpenFile | MP4Movies.c `parseMovie`, `MergeMovieFragments`, `MergeMovieData`; the classes of boxes other than media data are a parameter |
| Model/Handler | MP4DataHandler.c, FileMappingDataHandler.c, MemoryFileMappingObject.c, linux/SimpleFileMappingObject.c; MediaInformationAtom.c and MetaAtom.c `openDataHandler`, `closeDataHandler`, `testDataEntry`; the file system is a parameter |
| Model/Stream | MP4FileMappingInputStream.c, MP4MemoryInputStream.c, MP4InputStream.h, macosx/SimpleFileMappingObject.c (`doOpen`, `copyData`); `mmap` and `munmap` fail exactly for empty ranges, negative offsets and `MAP_FAILED` |
| Model/Ipmp | MP4IPMPTool.c, MP4IPMPToolList.c, MP4IPMPToolDescriptor.c, MP4IPMPInitialize.c, MP4IPMPXData.c, MP4IPMPXDefaultData.c, IPMPToolUpdateCommand.c, MP4IPMPX.c; a handle is its bytes, a descriptor of another class in a handle gives `ub` |
| Model/SampleDesc | ISOSampleDescriptions.c 88-833, MP4Atoms.c 710-766; a handle is its bytes; what an edit that fails after `MP4SetHandleSize` leaves in the handle is not modelled |
| Model/MediaDesc | MP4Media.c 719-1049, 1464-1528, MediaInformationAtom.c 397-421, 488-512, SampleTableAtom.c 163-181, 221-236 |
| Model/TrackTime | EditListAtom.c 320-387, MovieTracks.c 986-1052, 1151-1213 |
| Model/SampleRef | MP4Media.c 1890-2012, 2103-2164 |
| Model/CodecDesc | ISOSampleDescriptions.c 988-1392, 2217-2325, ends of 1470-1672 and 1872-2213 |
| Model/Groups | SampleTableAtom.c 56-85, 408-420, 527-708, TrackFragmentAtom.c 111-133, 316-352, 604-671, 850-914, MovieFragmentAtom.c 141-152, MediaAtom.c 317-435 (groups only) |
| Model/MediaAttr | MP4Media.c 386-619, MediaAtom.c 89-170, 487-515, MediaInformationAtom.c 67-96, 280-330 |
| Model/SubsTrack | MovieTracks.c 144-351, SampleTableAtom.c 93-98 (sub-sample information) |
| Model/AuxList | MP4Media.c 2337-2394, MP4Handle.c 26-34, 97-128 (as a record in memory) |
| Model/Defaults | MovieTracks.c 1054-1109, MovieExtendsAtom.c 50-109, 167-265, 294-318, MP4MovieFile.c 341-422 (first fragment), MovieAtom.c 411-497, TrackAtom.c 355-373, MediaAtom.c 213-227. The `trex` boxes as a list; not: the other boxes in `mvex`, `mvex` as a container |
| Model/Display | MP4Movies.c 427-445, 856-947, 1342-1349, MovieTracks.c 52-81, 434-600, MovieAtom.c 112-160, 174-303, TrackAtom.c 220-353, TrackHeaderAtom.c 161-184, MovieHeaderAtom.c 160-185. The headers only; no fragments |
| Model/ItemAsk | ISOMeta.c 1455-1504, 1698-1768. Buffers of the caller are large enough |
| Model/UserFile | UserDataAtom.c 225-376, UnknownAtom.c 34-94, MP4UserData.c 141-167, 238-259. Not: boxes of type `uuid` or of a class of their own as user data |
| Model/Iprp | ItemPropertiesAtom.c (all), ItemPropertyContainerAtom.c, ISOMeta.c `ISOAddMetaItemProperty`, `ISOGetProperitesOfMetaItem`. Not: the meta box around it (C83), files of other writers |
| Model/ItemRange | ISOMeta.c `ISOAddItemExtentReference`; the item is that of Model/Meta, it is read with Model/Handler. Not: `ISOAddItemExtentItem`, how the data reference got into the meta box, allocation failures |
| Model/Foreign | UnknownAtom.c (all but `destroy`); MP4UserData.c `MP4NewForeignAtom`, `MP4GetForeignAtom`, `MP4NewUUIDAtom`. Not: types that have a class, the boxes they are put into (C70, C102 and others), failing or empty allocations |
| Model/Primary | ISOMeta.c `ISOGetPrimaryItemData`, `ISOFindItemByID`, over Model/MetaBox and Model/Handler. Not: primary items with construction methods 1 and 2 (for these items see C84) |

Each model file says at its head and at the definitions where it simplifies. The main ones:
atoms are records, not tables of function pointers; a failed allocation does not happen; strings
and debugging output are left out; a box other than the one under study is its bytes.

## Findings

Places where the code does not do what the property says. Those with a theorem are proved by a
concrete witness; the others were seen while reading and are outside the claims.

* **stts**: `MP4MediaTimeToSampleNum` returns no sample for zero durations; a query past the end
  followed by an addition reads a stale cache.
* **stsc** (C10, witness): the sample description of the first sample of a run is that of the run before.
* **stsz**: an empty batch is mishandled; 4-bit sizes are written in the order opposite to the standard.
* **stss** (C16, witness): samples added without a sync handle; **ctts** (C17, witness): late first offsets.
* **elst** (C18, C45): version 1 is never chosen; an inserted empty edit is not marked empty.
* **sdtp** (C20): a negative index before the first sample stores out of bounds.
* **sgpd** (C46), **sbgp** (C47): versions 0 and 2 cannot be written again; ranges before the first
  sample store out of bounds.
* **csgp** (C48): the message buffer of 80 bytes overflows with 40 patterns or more; stale compact
  encoding after later changes; pattern length 0 divides by zero.
* **mdat** (C43, witness): wrong header for the 8 sizes just below 2^32.
* **Reading samples** (C25, witness): durations of 2^31 or more come back sign-extended.
* **Writing the movie** (C26, witness): a chunk that begins at the end of the data is changed in memory by writing.
* **Merging media data** (C27, witness): boxes at 2^31 or beyond are relocated wrongly.
* **Language** (C31, witness): an upper-case letter is an undefined shift of a negative number.
* **Headers** (C44, witness): version 0 is kept for times of 2^32 or more, which are cut.
* **Descriptors** (C30): a body of 2^28 bytes or more is written with a cut length, without an error.
* **ES descriptor** (C49, witness): `addDescriptor` and the parser disagree on the list for tags 0x4A to 0x5F.
* **Sub-samples** (C41, `c41_no_subsamples_rejected`): an entry without sub-samples is written but refused by the parser, because the allocation check tests the count and not the pointer.
* **Track references** (C50, `c50_index_fails`): for a track that is already referenced the index returned is the number of references, not the index of that track.
* **Property associations** (C36, `c36_fails`): in the 16-bit form the essential flag is cut to 8 bits, so it is always read as 0 and stays in the index. The library creates the 8-bit form whatever the number of properties, and an index of 128 or more is then written as another one (`c36_narrow_overflows`).
* **Segment index** (C37, `c37_fails`): the loop of the parser compares with a count that it increments itself. No index with a reference that the library writes can be parsed, and of those by others only one with 32768 references (`c37_others_fail`). The declared size is four bytes for each reference too large (`c37_written`), and sizes are cut to 15 bits (`c37_ref_size_cut`).
* **Track IDs** (C33, `c33_fails`): after track 2^32 - 1 the next ID is 0 and a requested ID is not checked any more.
* **Item IDs** (C34): a requested ID in use is accepted, because `err` is `MP4NoErr` when the loop finds it (`c34_duplicate`); item 65535 makes IDs start again (`c34_wraps`); `next_item_ID` is not set when a file is read (`c34_after_reading`).
* **Item data** (C52, `c52_second_item_fails`): the offset of the first piece is in the base offset and in the piece, and `ISOGetItemData` adds them. `mdatMoved` of the item locations moves both, so written files are wrong too. `ISOAddItemExtent` does not check the construction method (`c52_mixed_fails`). A piece of length 0 is read as all of the data. `getData` of the item data box reads out of bounds for an offset after the end (the difference wraps).
* **Item data** (C52, `c52_base_and_offsets_fail`): the base offset is added to the first extent only.
* **Boxes with a 64-bit size** (C32, `c32_large_child_fails`): inside a container such a box counts as one byte (its 32-bit size field), and UnknownAtom.c reads `1 - 16` modulo 2^32 bytes for it whatever its 64-bit size is. In a stream shorter than 4 GB every such box of an unknown class is refused; in a longer one a container of 9 bytes with a child of more than 4 GB is accepted.
* **Track runs** (C28, `c28_empty_run`): a fragment with a run without samples cannot be written: `setFlags` reads the first entry without looking at the count. `mergeRuns` stores to the first entry of a run that is read with no samples and with flags of the first sample.
* **Merging fragments** (C54, `c54_not_sizes`): in a movie that was opened, sizes of the samples of the first run become what `realloc` leaves in memory when the first run has one size and a later run another. (`c54_not_sync`): the samples of a run of sync samples are reported as not being sync samples once an earlier run had one that is not. (`c54_not_description`): with several sample descriptions, samples of fragments are reported with the last one. (`c54_not_error`): errors of `mergeRuns` are overwritten; a fragment with a bad description index is dropped silently. (`c54_not_first_time`): a first fragment with a decode time above 0 dereferences NULL. (`c54_not_empty_run`): a run without samples reads an empty handle. (`c54_not_offsets`): composition offsets that begin in a later run are given to the wrong samples.
* **Parameter sets** (C55): AVC extension sets outside profiles 100, 110, 122, 144 are accepted and dropped (`c55_not_avc_extension`; 144 should be 244), and sets of 65536 bytes or more are cut (`c55_not_avc_long`). HEVC returns only types from 32 on for as many types as are present, so a PPS is lost when there is no VPS (`c55_not_hevc_without_vps`, exact statement `c55_hevc_returned`); a file with nine arrays overruns the table (`c55_not_hevc_nine_arrays`). VVC: a second OPI or DCI set is an assertion failure (`c55_not_vvc_second`); a file with sub-profiles stores through NULL (`c55_not_vvc_sub_profile`); zero constraint bytes cannot be written (`c55_not_vvc_no_constraints`); a present but empty array gives a box that cannot be parsed (`c55_not_vvc_empty_array`); other NAL types in a file are an assertion failure (`c55_not_vvc_other_type`).
* **Fragments in a file** (C56): padding values have no effect, because the bytes of the handle itself are read (`c56_not_padding`); decode times are kept modulo 2^32 (`c56_not_time`); a call without samples makes writing read the first entry of an empty run (`c56_not_empty`); a run whose data begins 2 GB or more into the data of a fragment is placed 4 GB too low (`c56_not_far_run`); from 2 GB into the file the base of a fragment is written sign-extended (`c56_not_far_base`).
* **Fragments by others** (C57): a run without an offset behind another run is found at the base, where the first run is (`c57_not_second_run`); `calculateDataEnd` adds the size of all earlier runs to each run, so a track fragment based on the end of one with two runs is found too far behind (`c57_not_chained`), and has 32 bits (`c57_not_far`); a box of another type in a fragment is taken for a track fragment (`c57_not_member`); a fragment of a track without `trex` uses a pointer that was not set (`c57_not_track`).
* **Opening a file with fragments** (C58): the failures of C54 are met with files that the library itself writes: `c58_not_sizes`, `c58_not_sync`, `c58_not_offsets`, `c58_not_first_time`.
* **Item information** (C59): content types and encodings are copied without their terminator, so writing reads behind them (`c59_not_content`); the type of an extension is read in host order, reversed on a little-endian machine (`c59_not_extension_type`); an extension of type 0 is written without its type, and reading takes its data for one or computes a negative size (`c59_not_extension_zero`); an entry of more than 4096 bytes overruns a buffer on the stack when read (`c59_not_long`); an item is still found by a name it no longer has (`c59_not_renamed`). `ISOHideItem` without a `pitm` box dereferences NULL (no theorem).
* **Entity groups** (C61, `c61_not_rewritten`): a group with data behind its entities is read, but cannot be written again, because its size does not count the data.
* **Brands** (C62): the segment type box is read and written as a full box. In the standard it is a plain box, so the fields of a segment type by another writer are shifted (`c62_segment_by_others`), and with a single compatible brand the box is refused (`c62_segment_refused`), and with it the file. A file type without compatible brands is written but refused when read (`c62_empty`). Brand 0 counts as compatible with every file (`c62_zero`).
* **Sample auxiliary information** (C63): `mdatMoved` of the offset box runs one step too far, so writing any movie with auxiliary information reads, and may write, past the array (`c63_write_out_of_bounds`). Offsets are taken to be one per sample; the standard has one per chunk or run or a single one, so files by others are read out of bounds (`c63_shared_offset`). Merging a fragment with a kind that the movie does not have calls through a null pointer (`c63_merge_new_kind`). Boxes that are set up have version 0, so offsets beyond 4 GiB lose their upper bits (`c63_far_offset`). `MP4GetSampleAuxiliaryInformation` (MP4Media.c 2337-2395, C98) writes over the handle records instead of their contents.
* **Parameter sets** (C64, C65): the number of bits left starts 8 times too high, since a length in bits is multiplied by 8, so a truncated set is read past its end (`c64_past_end`), and so is an empty one (`c64_empty`). H.264: with chroma format 3 the flag for separate planes is not read, so both bit depths are wrong (`c65_avc_444`); without a picture parameter set the sequence parameter set is dropped (`c65_avc_sps_dropped`); emulation prevention is not removed, which does no harm since the fields have none. H.265: tier, profile space, constraint flags and number of sub-layers do not come into the configuration (`c65_hevc_tier_lost`). H.266: any set with general constraints ends in an assertion or an overrun (`c65_vvc_constraints`), any set with sub-profiles in a write through a null pointer (`c65_vvc_subprofiles`).
* **Samples by time** (C66). `MP4GetMediaNextInterestingTime` takes `exactSample` for the test whether a sample starts at the
  given time, but `findSamples` sets it only at the beginning of a run of equal durations. So at the other starts the search
  forward with `MP4NextTimeEdgeOK` skips the sample, and the search backward without it does not move. It also ignores
  `MP4NextTimeSyncSample`. `MP4GetMediaSample` fails for an empty sample if the media data is empty.
* **Composition to decode** (C67). `compositionEndTime` is the greatest composition time; the standard asks for the end of
  that sample, so it is short by its duration (`c67_end_time`). Batches without offsets do not advance the running decode
  time (`c67_gap`). `MP4UseSignedCompositionTimeOffsets` after the first offsets leads to a NULL dereference in the next
  addition (`c67_flag_late`). The result of `updateFields` is not assigned to `err`. An offset of -2^31 is negated.
  `getTrackExtensionPropertiesAtom` counts the properties boxes but reads the list of track extends boxes, so it never
  finds one, and settings made twice are stored twice (`c67_props_again`).
* **Fixed fields** (C68). The primary item box is always read and written with a 16-bit number, also in version 1
  (`c68_pitm_version1`); the producer reference time always with a 32-bit media time (`c68_prft_version1`).
* **Strings** (C69). The handler parser takes a name whose first byte is its length for a Pascal string and drops
  that byte (`c69_hdlr_mangled`), overflows a 256-byte array for names of more than 237 bytes (`c69_hdlr_long`),
  reads past the buffer of a name without NUL or of no bytes (`c69_hdlr_open`, `c69_hdlr_empty`) and does not know
  its own Pascal names of 128 bytes or more (`c69_hdlr_qt_long`). Strings without NUL are taken over from the file
  and read past their end, by the parser (schm, url) or by the next write (cprt, elng, iKMS). An `alis` box of more
  than 256 bytes overflows an array (`c69_alis`). A URN reference is written location first (`c69_urn_swapped`);
  a parsed one is written with the text "data entry URN" for its name (`c69_urn_again`);
  `MP4GetMediaDataReference` never fills the second handle and copies from the wrong field (`c69_get_urn`);
  `MP4AddMediaDataReference` adds no NUL to the address (`c69_handle_open`). A new `csch` box has the type `schm`
  (`c69_csch`).
* **Sample entries** (C70). The audio entry's parser uses a NULL pointer when a box in it cannot be parsed
  (`c70_audio_broken`), which includes one to three bytes of padding at the end of a file (`c70_audio_padding`) and
  QuickTime sound descriptions with two to seven samples per packet (`c70_audio_mace`). The fields of QuickTime are
  found only if they look like a box that is too big, and are not written, though the version stays 1
  (`c70_audio_qt_lost`). AudioSampleEntryAtom.c 104-115 takes any stream for a file stream. The boxes of a generic
  entry come back as its data (`c70_generic_flat`), and so do the fields of entries that the library writes but does
  not list for reading, `hvc2` and the haptic and volumetric ones (`c70_unlisted`). A second protection box replaces
  the first (`c70_enc_reads`). Text and XML metadata entries with a string of 1024 bytes or more overflow an array
  when read (`c70_text_long`), a string without NUL is read on in the next box (`c70_text_open`), and the namespace is
  forgotten when the box ends after it (`c70_xml_namespace`).
* **Protection** (C71). Protecting an entry twice loses the first protection and the type (`c71_twice`). An audio entry with
  the fields of QuickTime cannot be protected (`c71_protect_quicktime`). Removing the protection uses a NULL pointer when
  there is no box with the address or the format, and reads past an address without NUL (`c71_no_address`,
  `c71_no_format`, `c71_open_address`); the errors "not found" in `getSchemeInfoAtom` are replaced by the next result.
  For a restricted entry with no restriction box `getRinf` returns no error and leaves its result unset, so all three
  functions that use it use a pointer with no value (`c71_resv_bare`); asking for an address that the scheme does not have
  or for a box that is not there uses a NULL pointer (`c71_resv_no_address`, `c71_resv_no_info`). Of two restrictions the
  first is removed first (`c71_unrestrict_twice`).
* **Sound boxes** (C72). `GET8_V` and `GET16_V` store four bytes; in the block for a position with angles and for a
  measurement the last store ends beyond the block (`c72_layout_angles`, `c72_layout1_angles`, `c72_loudness_room`). A channel
  layout of version 0 with listed positions and an object count cannot be read (`c72_layout_objects`). What was read loses its
  positions or coefficients when written (`c72_layout_lost`, `c72_downmix_lost`). Fewer positions or coefficients than
  channels use a pointer that was never set (`c72_layout_short`, `c72_layout1_short`, `c72_downmix_short`). The number of
  coefficients has sixteen bits, so of more than 65536 only the last block is kept (`c72_downmix_read`). Bytes after the last
  field fail an assertion (`c72_layout1_extra`, `c72_loudness_extra`, `c72_box_over`).
* **Boxed metadata** (C73). A four-character value is put together from signed characters: with a byte over 127 in its last
  three it is refused though it is the number (`c73_high_refused`), or taken though it is not (`c73_high_taken`); one of less
  than four bytes is read past its end (`c73_short_value`). The size of an empty locale does not count its NUL, so the entry
  cannot be written (`c73_empty_locale`). The number 0 can be given, and fails an assertion when written (`c73_zero`); with
  the number `uuid` the declaration is read as the 16-byte type (`c73_uuid`). The configuration of a key without a declaration
  uses a NULL pointer (`c73_no_declaration`). A table of QuickTime at the end of an entry is read as one such key, numbered by
  the count of keys (`c73_quicktime`); elsewhere all up to the end of the stream has to be readable as boxes
  (`c73_quicktime_more`). Of two boxes of a key in a sample the first is lost (`c73_demux_lost`); a box of the key with a
  length past the end of the sample, or less than eight, is copied from beyond it (`c73_demux_over`, `c73_demux_torn`).
* **Object descriptors** (C74). The reader gives both tags of object descriptors as 0x01, so the one of files is lost
  (`c74_tag_lost`); an initial object descriptor with a URL is written without its streams and profiles (`c74_url_drops`).
  Object content information is added to the extensions, but read into its own list, which is written elsewhere
  (`c74_oci_moves`). `MP4CopyDescriptor` overwrites its error: a copy that fails is a success with no result, which its callers
  use (`c74_copy_hides_errors`).
* **Object descriptor streams** (C75). The number stored for a stream is how many are known, not the place of the one named,
  so a stream named twice is read as another one (`c75_twice`), also when a pointer inside its descriptor names one
  (`c75_pointer_in_stream`). Errors are overwritten: a frame that is refused, or not even a frame, is stored as given, and the
  reference keeps what was added (`c75_errors_hidden`, `c75_anything_stored`). When reading, number 0 is looked up before the
  array (`c75_zero_reference`), a pointer's number beyond it (`c75_pointer_unchecked`); stream 65535 reads as no stream
  (`c75_last_number`). A track with its own SL configuration is described by memory that was freed
  (`c75_own_configuration`).
* **Initial object descriptor** (C76). Creating a movie with a URL writes one byte behind the block for it (`c76_url`); without
  the box the questions go through a null pointer (`c76_no_box`). When a track is missing the streams described before it stay
  in the descriptor and are given twice the next time (`c76_streams_stay`); when the descriptor cannot be written it has lost its
  list of tracks (`c76_broken_by_configuration`). An exchange file that is read again is given with the wrong tag, cannot be
  written before that, and after that its profiles are read from beyond the object (`c76_exchange_reopened`).
* **Stores of four bytes** (C40, C72, C79). `GET8` and `GET16` pass the address of the field as that of a `u32`. Where the field is
  smaller and last in its block this writes past the block: the sizes of auxiliary information (`c40_overrun`), positions and
  measurements (C72), component bits and stereo indications (C79). Elsewhere the bytes are fields that are read later or padding, with
  eight-byte pointers; with four-byte pointers reading a segment index would destroy the pointer to its references.
* **Track groups** (C77). All boxes in a track group box are read as plain groups, so what follows the ID is lost when the file is
  written again, e.g. which view a stereo track is (`c77_extension_lost`, `c77_stereo_lost`). Writing the view shifts a `u8` by 31
  (`c77_stereo_shift`). Free space in a track group box is read as a group, so an empty one shifts all that follows
  (`c77_free_space`). A type of 0 is accepted and cannot be written (`c77_no_type`; likewise for track references,
  `c39_no_type`). All object descriptor tracks are put in the same group (`c77_descriptor_streams`).
* **Subsegment index** (C78). The serializer takes the range by the number of the subsegment, not of the range, and shifts the
  level by 28, not 24: files are written with other ranges or not at all (`c78_written`, `c78_refused`,
  `c78_write_fails`). What is added to the box is not counted, so it is not written (`c78_built_not_written`).
* **JPEG 2000** (C79). Signature and image header are written with `PUTBYTES` of `u32` fields, so in the byte order of the machine:
  a new movie on a little-endian machine has the signature 0A 87 0A 0D (`c79_signature_wrong`), and heights, widths and numbers of
  components are swapped; on a big-endian one all small fields become 0 (`c79_image_written`, `c79_image_iff_partial`). Reading is
  right, so a second writing repairs the first (`c79_image_twice`). A new bits-per-component box has an item before those that are
  added (`c79_bits_extra`), an empty one is refused (`c79_bits_empty`). Color specifications keep only methods 1 and 2
  (`c79_colour_lost`); the `colr` box of ISO files (`nclx`) has the same type and is read as one of method 0x6e.
* **Stereo video** (C79). 14 of the 30 reserved bits are kept (`c79_stereo_read`), boxes in the box fail an assertion when read
  (`c79_stereo_boxes_read`) and are not counted, so they cannot be written (`c79_stereo_boxes`).
* **Protection of items** (C80). Indices are `u16`: the 65536th protection gets the index 0 and the next one that of the first
  (`c80_index_wraps`); as many are written with a number that is refused when read (`c80_too_many`). No original format is written.
  A protection without a scheme, or a box that is none, is read; asking for its scheme is undefined (`c80_no_scheme`,
  `c80_other_box`).
* **Durations** (C81). `MP4GetMovieDuration` uses media durations that are only brought up to date by `MP4EndMediaEdits` or
  `MP4GetTrackDuration` (`c81_stale`). `MP4InsertMediaIntoTrack` compares a duration in units of the media with that of the track in
  units of the movie, so part of a media may silently not be inserted (`c81_part_lost`); the documented rate -1 is refused
  (`c81_dwell`), and inserting elsewhere than at the end of a track with edits is not implemented (`c81_insert_between`). Changing the
  time scale of a movie leaves the segments (`c81_rescaled`). An edit box without edit list makes asking undefined (`c81_no_list`); a
  track with time scale 0 makes the whole movie fail (`c81_no_scale`); durations are cut to 32 bits (`c81_wraps`, `c81_long`).
* **Edits made for fragments** (C82). Segments are rounded down to units of the movie one by one, so a track with edits whose
  fragments are short does not get longer (`c82_short_lost`). The edit list of duration 0 that skips the beginning of the media in
  fragmented files is followed by segments from media time 0, which undoes it (`c82_skip_undone`). The segment inserted for an empty
  fragment is not flagged as empty until the movie is written and read again (C18), so no reader can be made for a track that begins
  with one (`c82_gap_unread`); if its decode time is later than the end of the media, the last sample is made longer but no segment
  shows it (example after `c82_gap`).
* **Meta boxes** (C83). The handler type of a new meta box is compared with the type of the box, `meta`, and the types of the boxes in
  the container with each other: a second meta box for the same handler type is accepted but cannot be found (`c83_same_type`), a
  third one is refused whatever its type (`c83_third`), and so is a second one for the handler type `meta` (`c83_history`). Asking for
  a type that none of two meta boxes has dereferences a null pointer (`c83_find_partial`). Relations of meta boxes are stored by
  handler type and looked up by box type, so none is found (`c83_relations_lost`); those of movies and tracks are refused because
  the container is assigned before it is known (`c83_relation_refused`); after reading all are refused (`c83_reread`). Data read as
  that of a full box from a box of fewer than four bytes is copied from past the end of the box (`c83_data`, `gets`); data given
  for an `iloc` box calls through a pointer that is not there (`c83_data_iloc`), and data of a box of a known class is read as
  that of an unknown one (`c83_data_known`). Any damage to the first box of a meta box is taken for a QuickTime meta box, so the damaged
  meta box at the end of a file is accepted (`c83_damaged`).
* **Items of files** (C84). The offset of the first extent is taken off the base for all later ones, so two places in the file are read
  from the wrong one unless the first is at the beginning of the media data (`c84_not_two_places`); an offset from a base that is also
  the number of a byte in a media data box is moved as if it were one (`c84_not_offset_like_place`). When a movie is written, base and
  offsets both are made places in the file, so that their sum, the place by the format, is too large (`c84_not_as_written`) and mostly
  after the end of the file (`c84_not_readable_as_written`); the library itself reads such a file back (`c84_reopened`). The base is
  ignored for the item data box and other items (`c84_not_base_of_item_data`). Meta boxes in the container `meco` do not get the
  media data, and their items are refused (`c84_not_without_media_data`). Items made of each other recurse without end
  (`c84_not_without_end`), an offset after the end of the other item is read past it (`c84_not_past_the_end`), and an extent without index,
  which stands for the first reference, reads before the references (`c84_not_without_index`).
* **Opening files** (C85). Up to seven bytes after the last box, such as padding, make the whole file unreadable (`c85_not_with_padding`), as
  does any box that cannot be read, also one that is not needed (`c85_damaged`). Fragments in a file without a movie box, such as a media
  segment with a type box, dereference NULL (`c85_not_fragments_alone`).
* **Other files** (C86). After one read from a file that is not there, the track cannot be read any more, nor closed: the handler that failed is
  kept with index 0 (`c86_not_after_missing`; a meta box recovers). Nothing checks that a place is inside of a file that is not in memory
  as media data (`c86_not_checked`, `c86_not_rest_of_file`), that an entry has a location, or that it ends (`c86_not_without_location`; the
  flags are compared with 1, but `& 1` decides whether there is one). Files above 0x7ffff000 bytes are refused, and above 4 GiB only the size
  modulo 4 GiB is in memory (`c86_not_two_gigabytes`, `c86_not_four_gigabytes`). A backslash in the path of a movie is taken for the end of its directory
  (`c86_not_backslash`), and `file://` is taken off twice when opening but once when testing (`c86_not_tested`).
* **Streams** (C87). `rewindData` of a stream over memory compares the amount with an address, so that going back before the start is not refused
  (`c87_not_before_start`; no caller in the library). The stream over a file trusts `size64` (`c87_not_checked`).
* **Windows** (C88). On macOS, reading nothing at the end of a file whose length is a multiple of 16 MiB maps nothing, and from then on nothing can be
  read (`c88_not_after_nothing`). An offset that wraps together with the length passes the check and has the same effect
  (`c88_not_after_wrap`), so that one `co64` entry of all ones makes the file unreadable.
* **IPMP tools** (C89). `MP4AddUrlToIPMPTool` allocates room for the URL but copies nothing, so that zeros are written (`c89_not_url`). Counts are
  written in one byte: with 256 data for an initialisation all of them are lost (`c89_not_256`), a tool with 256 alternatives cannot be read
  (`c89_not_256_alternates`). Destroying a tool descriptor frees its initialisation twice, so that `MP4NewIPMPToolDescriptor` with an
  initialiser always does (`c89_not_initialize`), and adding to such a descriptor or adding it to a command too (`c89_not_initialized`). With the
  tool id 0 `calculateSize` dereferences the missing URL (`c89_not_zero_id`). Data added to a descriptor with a URL vanish without an error
  (`c89_not_dropped`). `GET8_V` stores four bytes into the one-byte locals `flags` and `initFlag`, which is undefined behaviour for every tool
  (`c89_not_defined`).
* **Sample descriptions in handles** (C90). The code after `bail` in `MP4NewSampleDescriptionWithOCRAssociation` (266-272) replaces the error: a bad
  handle or a failed reference gives `MP4NotFoundErr` (`c90_not_new_error`, `c90_not_new_info`), no memory for the handle gives no error
  (`c90_not_new_memory`). `ISOSetSampleDescriptionType` to a type that does not begin with `mp4` destroys the `esds` box and then reads its type
  (undefined), and without such a box does nothing but fail (`c90_not_type`). `ISOGetAtomFromSampleDescription` returns a box that it has
  destroyed (`c90_not_get`); `ISOAddAtomToSampleDescription` destroys the caller's box (`c90_add`, `c90_add_taken`).
  `ISOSetSampleDescriptionDimensions` takes entries of all classes for visual ones, protected and restricted ones too (`c90_not_dims`). A priority of
  32 or more is written over the flags of the descriptor (`c90_not_priority`). The AMR functions cut a time scale to 16 bits, the others write 0
  (`c90_not_rate`).
* **Decoder configuration of a media** (C91). `MP4GetMediaDecoderInformation` leaves the handle as it is, with no error, when there is no decoder
  specific information: a caller with one handle gets that of another description (`c91_not_cleared`). With no decoder configuration it writes none of
  the values, with no error (`c91_not_written`). `upstream` is returned as 2, not 1.
* **Track time to media time** (C92). The loop of `getTimeAndRate` does not stop at the segment that holds the time: if a segment follows that is
  not shorter, the answer is a time of that one (`c92_following_segment`, `c92_full_fails`). In an empty edit it reads after the end of the entry
  (`c92_empty_edit`, after `MP4SetTrackOffset` at all times up to the offset: `c92_offset_read`). Fractions of a second are dropped (`c92_no_edits`).
  After the last segment the media time is -1 with no error (`c92_after_end`).
* **Edit list** (C18). The rate field 1 of a file is read as the rate 1, a workaround for old files; all others lose their fraction
  (`c18_rate_read`).
* **Samples by number** (C93). `MP4SampleNumToMediaTime` succeeds after the last sample, with the decoding time 2^64 - 1 (`c93_past_end`). The
  offset of `MP4GetIndMediaSampleReference` has 32 bits: from 4 GB on it is cut with no error (`c93_offset_cut`).
* **Codec descriptions** (C94). `ISOGetNALUnitLength` refuses entries of type 'hvc2' and 'vvs1' though `ISOGetHEVCSampleDescription` and
  `ISOGetVVCSubpicSampleDescription` read them (`c94_not_length`). In a restricted entry an H.265 configuration hides an H.264 one, and H.266 is
  not looked for (`c94_restricted`). Only two bits of the kind of an H.264 set count, so kind 5 is kind 1 (`c94_avc_kind`). A new H.264
  entry has the size 320 by 240 whatever the sequence set says (`c94_new_avc`), and its length size is not checked.
* **Sample groups** (C95). With `SAMPLE_GROUP_AUTO` the new mapping has no box type, so it is never found again: the number of a sample cannot be
  asked for, each call makes a new box, and in a fragment it is lost (`c95_not_auto`). Refused calls leave boxes behind (`c95_not_clean`). In a
  fragment the number that adding a description returns is refused when asking for it (`c95_not_local`). A mapping longer than the
  runs of its fragment overwrites the first samples of the movie (`c95_not_long`). A mapping of a type without descriptions ends the merging of later
  ones, and the error is dropped (`c95_not_error`). A local number for a type that the movie does not have would be a NULL pointer; it
  cannot happen as the descriptions are merged first, unless all of them are missing, which is an error before.
* **Attributes of a media** (C96). Setting the extended language a second time returns no error, the first one stays, both are written, and the
  file is refused when read (`c96_not_tag`). A graphics mode is 32 bits in the interface and 16 in the file (`c96_not_mode`). The type of
  the media header is not checked: a video media whose file has a sound media header is read beyond its structure (`c96_not_header`).
* **Sub-sample information of a track** (C97). Only the first set can be asked for, and the codec specific parameters of none
  (`c97_not_all`). For a sample without sub-samples the pointers returned are not initialised, and the written file is refused
  (`c97_not_empty`). Flags and priorities are 32 bits in the interface, 24 and 8 in the file (`c97_not_wide`).
* **Listing kinds of auxiliary information** (C98). `MP4GetSampleAuxiliaryInformation` casts the handles instead of what they point to, so it stores
  flags, types and parameters over the records of the handles: the address of the block becomes the first type (`c98_not_listed`,
  `c98_not_one`), from 5 kinds on the handle is not taken for one any more (`c98_not_five`), and from 9 on it writes behind the record.
* **Defaults for fragments** (C99). `ISOSetTrackFragmentDefaults` adds a box also if the track has one. Each fragment then has two boxes for the track;
  samples are written as differences from the second one and read with the first: with the durations 1000 and 512, samples of 512 are
  read as 1000 (`c99_not_twice`). A call in a fragment takes the fragment for the movie box (`c99_not_late`). The time of the first fragment
  is cut to 32 bits (`c99_not_time`).
* **Dimensions of tracks** (C100). `MJ2SetTrackDimensions` shifts 32-bit values to the left by 16 without a check: every width or height from 65536
  on is answered as another one (`c100_not_wide`, `c100_not_high`).
* **Asking about items** (C101). `ISOGetItemInfo` has `name[0] = 0` where `content_type[0] = 0` is meant: for items of a type other than `mime`
  read from a file, the name is erased, or `NULL` is written to (`c101_not_name`). Content types that were set have no terminator
  (`c101_not_content`). It tells the first information that was set, the other functions the newest (`c101_not_newest`).
  `ISOGetAllItemsWithType` fails if one item has no type (`c101_not_mixed`), and for entries of version 3 (`c101_not_wide`).
* **User data in files** (C102). Items of type `free` or `skip` can be added and are written, but are passed over when read (`c102_not_free`). A type
  whose items were all deleted is still counted, but not after a file (`c102_not_types`).
* **Item properties in files** (C103). An item properties box is created with an empty container in its list, and those read are added to it: every
  time a file is read and written the box grows by eight bytes (`c103_grows`). From 128 properties on the associations, which the library always
  writes with seven bits, point elsewhere (`c103_not_many`). Properties that are free space are dropped and shift the others (`c103_not_free`).
  Asking for the properties of an item before any was given reads through a null pointer (`c103_not_asked`).
* **Items in other files** (C104). `ISOAddItemExtentReference` adds where the first range starts to the base of the item and stores it in the range
  too, and the reader adds both: the first range is read from twice as far after the base (`c104_read`, `c104_not_elsewhere`), possibly past the end
  of the file (`c104_not_inside`). Only items whose first range starts at the base are right (`c104_ranges_partial`).
* **Primary data** (C106). Data of no bytes in a box of the meta box is reported as `badData` instead of as no bytes, also if there is a primary item
  (`c106_not_empty`).
* **Track reader** (C42, `c42_late_times_wrap`): times of 2^31 or more are returned as negative. (C53, `c53_empty_edit_at_the_end_fails`): when the edit list ends with an empty edit, the last sample before it is read but not returned. An edit that shows nothing still returns one sample (no theorem).
* **Item references** (C60): when a box of version 0 is read the block for the IDs has two bytes for each, but four are stored, so no file with a reference that the library writes can be read (`c60_not_read`); a second list for an item and a type is never reported (`c60_not_second_list`), nor anything after an empty list (`c60_not_after_empty`); reference 65536 is stored before the block (`c60_not_many`); index 0 reads before the array (`c60_not_index_zero`); IDs above 65535 are cut (`c60_not_large_id`). Errors in an inner box are ignored by the outer one.
* **User data** (no theorem): `getItem` on a parsed box of a class other than `MP4UnknownAtom` reads fields that it does not have.

## Seeded edits

`seeded/LOG.jsonl` has one line per wrong program tried: a realistic edit of a model definition in a
scratch copy, followed by a rebuild. A line names the modules whose theorems failed. A kill may show
in a lemma used by the property theorem instead of the property theorem itself.

## Not modelled

Allocation failure, file I/O (mmap), debugging output, the BIFS command classes,
and the command line tools.
