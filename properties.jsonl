{"id": "C01", "title": "The internal list behaves as a plain sequence", "statement": "Whatever sequence of append, prepend, get-by-index, delete-by-index and count calls is made on a list created by MP4MakeLinkedList, every call returns what the same call would return on an ordinary finite sequence: appended and prepended items sit where they were put, get(i) returns item i or MP4BadParamErr when i is not below the count, delete(i) removes exactly item i. The remembered cursor used to speed up iteration never changes an answer.", "quantifier": "all finite sequences of list operations, all item values, all indices", "why_tests_cant": "The cursor makes each answer depend on the whole earlier query history; tests exercise a handful of histories.", "anchors": ["IsoLib/libisomediafile/src/MP4LinkedList.c: MP4MakeLinkedList, MP4PrependListEntry, MP4AddListEntry, MP4GetListEntry, MP4DeleteListEntry, MP4GetListEntryCount"]}
{"id": "C02", "title": "Handles keep their contents and stay inside their allocation", "statement": "For any history of MP4NewHandle, MP4SetHandleSize, MP4SetHandleOffset and MP4HandleCat(dst, src) with src different from dst and combined sizes below 4 GiB: MP4GetHandleSize reports the size last established, concatenation leaves dst holding its old bytes followed by the bytes of src, growing or shrinking never changes the bytes that stay inside the size, and no byte outside the allocated block is ever written.", "quantifier": "all histories of handle operations with distinct operands and non-overflowing sizes", "why_tests_cant": "Memory safety and content preservation must hold for every interleaving of grow, shrink, offset and append; tests see a few sizes.", "anchors": ["IsoLib/libisomediafile/src/MP4Handle.c: MP4NewHandle, MP4SetHandleSize, MP4SetHandleOffset, MP4HandleCat, MP4GetHandleSize"]}
{"id": "C03", "title": "Integers written to a box are read back unchanged", "statement": "Every 8, 16, 24, 32 or 64 bit integer written through the serialisation layer and then read through the input-stream layer comes back unchanged (reduced to the width written), most significant byte first, and consumes exactly the bytes that were written; a read that needs more bytes than remain fails with MP4IOErr and consumes nothing.", "quantifier": "all integer values of each width, all preceding and following bytes", "why_tests_cant": "The value space is 2^64 and the surrounding bytes are arbitrary.", "anchors": ["IsoLib/libisomediafile/src/MP4Impl.h: PUT8, PUT16, PUT24, PUT32, PUT64, GET8, GET16, GET32, GET64", "IsoLib/libisomediafile/src/MP4MemoryInputStream.c: read8, read16, read32, readData"]}
{"id": "C04", "title": "A serializer never writes beyond the size the box declared", "statement": "Whatever the sequence of fields a box's serializer emits, the bytes it stores never extend beyond the size computed for the box: the first field that does not fit makes serialisation return MP4IOErr and nothing is stored for it. If all fields fit the output is exactly their concatenation.", "quantifier": "all sequences of fields (any widths, any raw byte strings) and all declared sizes", "why_tests_cant": "The guard has to hold for every combination of declared size and emitted content, including inconsistent ones no test constructs.", "anchors": ["IsoLib/libisomediafile/src/MP4Impl.h: PUTBYTES, PUT8_V, PUT16_V, PUT24_V, PUT32_V, PUT64_V", "IsoLib/libisomediafile/src/MP4Atoms.c: MP4SerializeCommonBaseAtomFields, MP4SerializeCommonFullAtomFields"]}
{"id": "C05", "title": "Decoding time and duration of a sample do not depend on earlier queries", "statement": "For a time-to-sample table that is not modified, asking for the decoding time and duration of sample n (1 <= n <= number of samples) returns the sum of the durations of samples 1..n-1 and the duration of sample n, regardless of which samples were asked for before and in which order. Holds whenever no single run spans more than 2^32-1 time units and there are fewer than 2^32 samples.", "quantifier": "all tables, all finite query histories, all sample numbers", "why_tests_cant": "A lookup cache makes answers history dependent; the space of tables and query orders is unbounded.", "anchors": ["IsoLib/libisomediafile/src/TimeToSampleAtom.c: getTimeForSampleNumber"]}
{"id": "C06", "title": "Durations given when samples are added are the durations of those samples", "statement": "For any history of adding batches of samples (each with a single duration for the whole batch or one duration per sample) the stored time-to-sample table describes exactly the concatenated list of per-sample durations, uses one entry per maximal run, and the reported total duration is the sum of all of them modulo 2^32. Extending the last sample's duration changes only that sample.", "quantifier": "all histories of sample additions with any batch sizes and durations", "why_tests_cant": "Run-length merging across batch boundaries depends on the entire history.", "anchors": ["IsoLib/libisomediafile/src/TimeToSampleAtom.c: addSample, addSamples, extendLastSampleDuration, getTotalDuration"]}
{"id": "C07", "title": "The time-to-sample table survives being written and parsed", "statement": "Serializing a time-to-sample table after computing its size succeeds, produces exactly the computed number of bytes, and parsing those bytes (followed by anything) yields the same table and consumes exactly that many bytes.", "quantifier": "all tables with fewer than 2^29-2 entries, all following bytes", "why_tests_cant": "Tables are arbitrarily long; every field value matters.", "anchors": ["IsoLib/libisomediafile/src/TimeToSampleAtom.c: serialize, calculateSize, createFromInputStream"]}
{"id": "C08", "title": "Time to sample number picks the sample playing at that time", "statement": "Finding the sample for a media time t returns a sample that plays at t — its start is at most t and t is before its end, or, for samples without duration, the sample starting exactly at t — together with that sample's start and duration, for every t below the total duration.", "quantifier": "all tables (fewer than 2^32 samples, no 32-bit overflow), all times below the total duration", "why_tests_cant": "Boundary instants between runs and zero-duration runs exist for every table.", "anchors": ["IsoLib/libisomediafile/src/TimeToSampleAtom.c: findSamples", "IsoLib/libisomediafile/src/MP4Media.c: MP4MediaTimeToSampleNum"]}
{"id": "C09", "title": "Every sample is mapped to the right chunk", "statement": "For a sample-to-chunk table whose runs have positive samples-per-chunk and increasing first-chunk numbers, looking up sample n returns the chunk that contains sample n and the number of the first sample of that chunk, regardless of the order of earlier lookups.", "quantifier": "all well-formed tables, all lookup histories, all sample numbers", "why_tests_cant": "A lookup cache plus run arithmetic; unbounded tables and histories.", "anchors": ["IsoLib/libisomediafile/src/SampleToChunkAtom.c: lookupSample"]}
{"id": "C10", "title": "Every sample is mapped to the sample description of its chunk", "statement": "Looking up sample n in the sample-to-chunk table returns the sample description index of the run that contains the sample's chunk.", "quantifier": "all well-formed tables, all sample numbers", "why_tests_cant": "The error only shows on the first sample of a run in multi-description tracks.", "anchors": ["IsoLib/libisomediafile/src/SampleToChunkAtom.c: lookupSample"]}
{"id": "C100", "title": "How a movie and its tracks are to be shown is what was set last", "statement": "After any sequence of calls that add tracks to a movie and set its matrix, preferred rate, preferred volume and time scale and the matrix, layer, dimensions, volume and enabled flag of tracks, with the movie written and read any number of times in between, each question gives the value set last for that movie or track, or the value of a new movie or track; no call changes what another one set. Negative layers and volumes survive. A time scale of 0 is refused. The code violates this for widths and heights of 65536 and more, which are cut.", "quantifier": "all sequences of calls and of writing and reading, all numbers of tracks, all values of the parameter types (dimensions below 2^16)", "why_tests_cant": "Each attribute shares a header with the others and with flags; layers and volumes are signed values in unsigned fields of another width, which matters for negative values and only after reading.", "anchors": ["IsoLib/libisomediafile/src/MovieTracks.c:52-81", "IsoLib/libisomediafile/src/MovieTracks.c:434-600", "IsoLib/libisomediafile/src/TrackAtom.c:220-353", "IsoLib/libisomediafile/src/MovieAtom.c:112-160", "IsoLib/libisomediafile/src/MovieAtom.c:174-303", "IsoLib/libisomediafile/src/MP4Movies.c:856-947", "IsoLib/libisomediafile/src/TrackHeaderAtom.c:36-184", "IsoLib/libisomediafile/src/MovieHeaderAtom.c:37-185"]}
{"id": "C101", "title": "What is told about items is what was set for them", "statement": "After any sequence of calls that set the information, the type, the extension and the visibility of items, ISOGetItemInfo writes to exactly the buffers it is given the name, protection index, content type and content encoding set for the item, and fails for items without information; ISOGetAllItemsWithType finds exactly the items of the given type in the order of their locations. The same holds after the item information box was written and read again. Fails: the name is erased (or NULL is written to) when the content type is asked for an item of a type other than mime read from a file; content types that were set are read beyond their copy; the first information set is told instead of the newest; one item without a type, or an entry with a 32-bit ID, makes the search by type fail.", "quantifier": "All sequences of calls, all items, all combinations of given and missing buffers, all types, all lists of located items, all bytes following the box", "why_tests_cant": "Which of four buffers are given, which kind of information each item has and whether it came from a file or from calls multiply; tests ask for everything about one item in memory, where the wrong assignment is never reached.", "anchors": ["IsoLib/libisomediafile/src/ISOMeta.c:1698-1768", "IsoLib/libisomediafile/src/ISOMeta.c:1455-1504", "IsoLib/libisomediafile/src/ISOMeta.c:1240-1277", "IsoLib/libisomediafile/src/ItemInfoAtom.c:58-79", "IsoLib/libisomediafile/src/ItemInfoEntryAtom.c:220-355"]}
{"id": "C102", "title": "User data survives files, however often and wherever they are written", "statement": "After any sequence of calls that add and delete items of user data, with the user data box written and read again at any places in the sequence, the items of each type are exactly those added and not deleted, in the order of addition; each is returned by its index as data and as a foreign atom, and other indices are refused. The box holds the items type after type, in the order of the first addition of each type; it is also read if four more bytes end it. Fails: items of the types free and skip are lost in the file, and types whose items were all deleted are counted in memory but not after a file.", "quantifier": "All sequences of additions, deletions and files, all types that no other box uses, all data that fits a box, all bytes following the box", "why_tests_cant": "Deleting, adding and reading interact through records that are kept empty in memory and rebuilt when read, so that the order of calls and files matters; tests write one file with one or two items.", "anchors": ["IsoLib/libisomediafile/src/UserDataAtom.c:225-376", "IsoLib/libisomediafile/src/UnknownAtom.c:34-94", "IsoLib/libisomediafile/src/MP4UserData.c:141-167", "IsoLib/libisomediafile/src/MP4UserData.c:238-259"]}
{"id": "C103", "title": "Item properties survive files, however often and wherever they are written", "statement": "After any sequence of calls that give properties to items, with the item properties box written and read again at any places in the sequence, each item has exactly the properties that were given to it, in the order of the calls. The box holds all properties in one container and an association box with the flags and numbers of the properties of each item. Fails: each file adds an empty container of eight bytes; more than 127 properties get other numbers in the file; properties that are free space are dropped and shift the others; asking before the first property reads through a null pointer.", "quantifier": "All sequences of calls and files with up to 127 properties, all classes of properties that survive by themselves, all item IDs of 16 bits, all bytes following the box", "why_tests_cant": "The pointers to the container and the association box, the numbers of the properties and the flags must agree after any interleaving of calls and files; a test with one file and a few properties does not see the growth nor the limit of seven bits.", "anchors": ["IsoLib/libisomediafile/src/ItemPropertiesAtom.c:38-262", "IsoLib/libisomediafile/src/ItemPropertyContainerAtom.c:30-107", "IsoLib/libisomediafile/src/ItemPropertyAssociationAtom.c:68-242", "IsoLib/libisomediafile/src/ISOMeta.c:1993-2084"]}
{"id": "C104", "title": "Items made of ranges of a file have the bytes of those ranges", "statement": "For any ranges (offset and length, from the base of the item on) given to a new item with ISOAddItemExtentReference, where the item's data reference is for a file, ISOGetItemData gives the bytes of the ranges of that file one after the other, whatever other items were read before, and also after the item location box has been written and read. Items with data reference 0, or in a meta box without data information, are refused. The code violates this if the first range does not start at the base: its start is counted twice, so that other bytes are read, or memory past the end of the file.", "quantifier": "all file systems, streams, data references and files, all bases and lists of ranges inside the file, all lists of items read before, all lists of items in a location box", "why_tests_cant": "Nothing in the repository calls the function, and a test with a range at offset 0 would not show that the offset is counted twice; which bytes are read for other offsets, bases and numbers of ranges needs an argument for all of them.", "anchors": ["IsoLib/libisomediafile/src/ISOMeta.c:494-535", "IsoLib/libisomediafile/src/ISOMeta.c:398-440", "IsoLib/libisomediafile/src/ISOMeta.c:1548-1695", "IsoLib/libisomediafile/src/ItemLocationAtom.c:60-280"]}
{"id": "C105", "title": "Boxes that the caller makes come back from files as they were", "statement": "Boxes made with MP4NewForeignAtom (a type and a payload) and MP4NewUUIDAtom (a 16-byte identifier and a payload), whose types the library has no class for, have in a file the layout of ISO/IEC 14496-12, and after any number of files MP4GetForeignAtom tells for each of them, in order, the type, the identifier if the type is uuid, and the payload that it was made with. A payload with which the 32-bit size of the box overflows is refused when it is written.", "quantifier": "all lists of boxes, all types but 0 and identifiers, all payloads that fit, all sets of types the library has classes for, all numbers of files", "why_tests_cant": "Tests write a box or two with fixed types and short payloads; the identifier takes part in the size, the header and the body of only one type, and boxes that follow are misread if any of the three differ.", "anchors": ["IsoLib/libisomediafile/src/UnknownAtom.c:34-94", "IsoLib/libisomediafile/src/MP4UserData.c:207-292", "IsoLib/libisomediafile/src/MP4Atoms.c:797-904", "IsoLib/libisomediafile/src/MP4Atoms.c:945-970"]}
{"id": "C106", "title": "Asking for the primary data of a meta box gives the box of the type, or else the primary item", "statement": "After any calls of ISOAddPrimaryData and ISOSetPrimaryItem on a new meta box, ISOGetPrimaryItemData for a box type gives the first data that was given in a box of this type; if there is none, the data of the item that was made the primary one last, found by its ID among the items (the first with the ID), which are the bytes of its extents in the file of its data reference; if there is no primary item, or no item with its ID, notFound. The code violates this for data of no bytes, which is an error.", "quantifier": "all histories of the two calls, all box types without a meaning of their own in a meta box, all lists of items, all file systems, data references, files and extents", "why_tests_cant": "The answer depends on the history of two kinds of calls, on the order of items with the same ID and on an error code that decides about the fallback; tests use one item or one XML box.", "anchors": ["IsoLib/libisomediafile/src/ISOMeta.c:905-926", "IsoLib/libisomediafile/src/ISOMeta.c:887-902", "IsoLib/libisomediafile/src/ISOMeta.c:928-975", "IsoLib/libisomediafile/src/ISOMeta.c:1406-1452", "IsoLib/libisomediafile/src/MetaAtom.c:247-290"]}
{"id": "C11", "title": "Recording chunks keeps one table entry per change and survives a write/parse cycle", "statement": "For any history of recording chunk k = 1, 2, 3, ... with its sample count and description index, the stored sample-to-chunk table expands to exactly that list of chunks, contains no two adjacent equal runs, and the same table results from serializing and parsing it.", "quantifier": "all histories of chunk additions", "why_tests_cant": "Merging depends on the full history; tables are unbounded.", "anchors": ["IsoLib/libisomediafile/src/SampleToChunkAtom.c: setEntry, serialize, calculateSize, createFromInputStream"]}
{"id": "C12", "title": "Sample sizes and in-chunk offsets are those that were added", "statement": "For any history of adding batches of samples with one size for all or one size per sample, the size reported for sample n is the size given for it, and the byte offset of sample n inside a chunk starting at sample f is the sum of the sizes of samples f..n-1 (below 4 GiB).", "quantifier": "all histories of sample additions starting from an empty table, all n and f", "why_tests_cant": "The table switches representation from one common size to a list at a history-dependent point.", "anchors": ["IsoLib/libisomediafile/src/SampleSizeAtom.c: addSamples, getSampleSize, getSampleSizeAndOffset"]}
{"id": "C13", "title": "Sample sizes survive being written and parsed in every field width", "statement": "Serializing the sample size table and parsing it back reports the same size for every sample, for the 32-bit form and for the compact 4, 8 and 16 bit forms provided the sizes fit the chosen field width; the number of bytes written equals the computed size.", "quantifier": "all size lists (uniform or not, odd or even length), all four field widths", "why_tests_cant": "Nibble packing, odd counts and the uniform special case interact; lists are unbounded.", "anchors": ["IsoLib/libisomediafile/src/SampleSizeAtom.c: serialize, calculateSize, createFromInputStream, setfieldsize"]}
{"id": "C14", "title": "Chunk offsets survive being written and parsed, using 64-bit only when needed", "statement": "Serializing a chunk offset table chooses the 32-bit box exactly when every offset is below 2^32 and the 64-bit box otherwise, writes exactly the computed size, and parsing yields the same offsets.", "quantifier": "all lists of 64-bit offsets", "why_tests_cant": "Width selection depends on all elements of an unbounded list.", "anchors": ["IsoLib/libisomediafile/src/ChunkOffsetAtom.c: calculateSize, serialize, createFromInputStream, addOffset, getChunkOffset"]}
{"id": "C15", "title": "Relocating media data moves exactly the chunks inside it and can be undone", "statement": "When a block of media data moves by a delta, exactly the chunk offsets that point into the block change, each by the delta, and moving the block back restores the original table, provided no chunk offset outside the block lies inside its destination.", "quantifier": "all offset tables, all blocks, all deltas", "why_tests_cant": "Quantifies over arbitrary offset tables and displacement values, including negative deltas.", "anchors": ["IsoLib/libisomediafile/src/ChunkOffsetAtom.c: mdatMoved", "IsoLib/libisomediafile/src/SampleToChunkAtom.c: mdatMoved", "IsoLib/libisomediafile/src/MP4MovieFile.c: LocalPutMovieIntoHandle"]}
{"id": "C16", "title": "Sync sample answers match what was declared when adding samples", "statement": "For any history of sample additions in which every batch states its sync samples, asking whether sample n is a sync sample answers yes exactly when the sample was declared sync (or no batch ever declared any sample non-sync).", "quantifier": "all histories of sample additions, all sample numbers", "why_tests_cant": "The sync table is created lazily with back-filling, so its meaning depends on the history.", "anchors": ["IsoLib/libisomediafile/src/SyncSampleAtom.c: addSamples, isSyncSample", "IsoLib/libisomediafile/src/SampleTableAtom.c: addSamples"]}
{"id": "C17", "title": "Composition offsets belong to the sample they were given for", "statement": "For any history of sample additions, the composition offset reported for sample n is the one supplied when sample n was added, and zero for samples added without offsets.", "quantifier": "all histories of additions with and without composition offsets, all sample numbers", "why_tests_cant": "The table is created lazily and padded; correctness depends on the history.", "anchors": ["IsoLib/libisomediafile/src/DecodingOffsetAtom.c: addSamples, addSample, getOffsetForSampleNumber", "IsoLib/libisomediafile/src/SampleTableAtom.c: addSamples"]}
{"id": "C18", "title": "The edit list survives being written and parsed", "statement": "Serializing an edit list and parsing it back yields the same segments (duration, media time, rate, and whether empty), in 32-bit form in version 0 and in 64-bit form in version 1; bytes written equal the computed size; and every list built by setting track offsets and inserting segments with a media time can be written so.", "quantifier": "all edit lists whose values fit the version in force; all sequences of edit operations", "why_tests_cant": "Unbounded lists and signed 64-bit values.", "anchors": ["IsoLib/libisomediafile/src/EditListAtom.c: serialize, calculateSize, createFromInputStream"]}
{"id": "C19", "title": "Padding bits survive being added, written and parsed", "statement": "For any history of sample additions with padding-bit counts 0..7, the padding reported for a sample is the one given, also after writing and parsing.", "quantifier": "all histories, all sample counts including odd", "why_tests_cant": "Two samples share one byte; odd counts and late creation matter.", "anchors": ["IsoLib/libisomediafile/src/PaddingBitsAtom.c: addSamplePads, getPaddingBits, serialize, createFromInputStream"]}
{"id": "C20", "title": "Sample dependency flags survive being set, written and parsed", "statement": "For any history of adding samples and setting dependencies on in-range samples, the dependency reported for a sample is the last one set for it (zero if none), also after writing and parsing.", "quantifier": "all histories, all sample numbers", "why_tests_cant": "Last-writer-wins over unbounded histories.", "anchors": ["IsoLib/libisomediafile/src/SampleDependencyAtom.c: addSamples, setSampleDependency, getSampleDependency, serialize, createFromInputStream"]}
{"id": "C21", "title": "Sample group descriptions keep the index they were given", "statement": "Adding a group description returns a new 1-based index under which exactly those bytes are retrievable ever after; adding an empty or already present description is refused and changes nothing; so stored descriptions are always pairwise distinct and non-empty.", "quantifier": "all histories of additions, all byte strings", "why_tests_cant": "Invariants over unbounded histories.", "anchors": ["IsoLib/libisomediafile/src/SampleGroupDescriptionAtom.c: addGroupDescription, getGroupDescription, findGroupDescriptionIdx"]}
{"id": "C22", "title": "Sample-to-group mapping survives run-length writing and parsing", "statement": "The group index reported for sample n is the last one mapped to it (0 if none or beyond the end), and writing the mapping run-length coded (sbgp) and parsing it reproduces the group index of every sample.", "quantifier": "all mapping histories with in-range arguments, all sample numbers", "why_tests_cant": "Run-length coding over unbounded arrays.", "anchors": ["IsoLib/libisomediafile/src/SampleToGroupAtom.c: addSamples, mapSamplestoGroup, getSampleGroupMap, serialize, createFromInputStream"]}
{"id": "C23", "title": "Compact sample-to-group coding is lossless", "statement": "The pattern-based compact representation (csgp) computed for any assignment of group indices to samples expands back to exactly that assignment, whatever patterns the optimiser picks.", "quantifier": "all arrays of group indices of any length", "why_tests_cant": "The optimiser is a dynamic programme with many interacting branches; the array space is unbounded.", "anchors": ["IsoLib/libisomediafile/src/SampleToGroupAtom.c: CreateCompactSampleGroups, FindPatternsStartingAtIndex, CombineNonPatterns, SetMemoryCostForPattern, SetMemoryCostForNonPattern"]}
{"id": "C24", "title": "Reading sample data never reads outside the media data", "statement": "Copying sample data out of the in-memory media data either fails with an error or returns exactly the requested byte range of it; it never touches bytes outside, for any 64-bit offset and 32-bit length, including wrapping sums.", "quantifier": "all media data contents, all offsets and lengths", "why_tests_cant": "The offset and length come from the (possibly hostile) file; the space is 2^96.", "anchors": ["IsoLib/libisomediafile/src/MdatDataHandler.c: copyData", "IsoLib/libisomediafile/src/MediaDataAtom.c: addData"]}
{"id": "C25", "title": "What is added as sample n is what is read as sample n", "statement": "After any history of adding batches of samples to a media (bytes, sizes, durations), interleaved with reads and with other tracks appending to the same media data, reading sample n by index returns exactly the bytes, size, decoding time and duration that were supplied for the n-th sample, as long as total data and time stay below 2^32 and each duration is below 2^31 (the reader passes it through a signed 32-bit variable; longer ones are returned wrong).", "quantifier": "all histories of batch additions, all sample numbers", "why_tests_cant": "End-to-end composition of five tables and the data store over unbounded histories.", "anchors": ["IsoLib/libisomediafile/src/SampleTableAtom.c: addSamples", "IsoLib/libisomediafile/src/MediaInformationAtom.c: addSamples", "IsoLib/libisomediafile/src/MP4Media.c: MP4GetIndMediaSampleWithPad"]}
{"id": "C26", "title": "Chunk offsets in a written file point at the chunk's bytes", "statement": "In a file produced by writing the movie (header boxes, movie box, then media data; to a file or into a handle) every written chunk offset of a chunk in this file, interpreted as a position in the file, is where that chunk's bytes are; offsets of chunks in other files are written unchanged; and writing leaves the in-memory offsets as they were.", "quantifier": "all movies with well-formed chunk tables whose in-file chunks begin inside the media data, with a header part below 2^31 bytes and a file below 2^32 bytes, any number of tracks and chunks, any place of the chunk offset boxes in the movie box", "why_tests_cant": "Offsets depend on the size of the header that contains them.", "anchors": ["IsoLib/libisomediafile/src/MP4MovieFile.c: LocalPutMovieIntoHandle", "IsoLib/libisomediafile/src/MovieAtom.c: mdatMoved"]}
{"id": "C27", "title": "Files with several media data boxes read back the right bytes", "statement": "When a parsed file has several media data boxes, merging them into one store and relocating the chunk offsets preserves, for every chunk of every track in this file, the bytes its offset refers to: reading at the new offset from the merged store gives the bytes at the old offset of the file. Offsets of chunks in other files, and offsets outside all boxes, are unchanged.", "quantifier": "all files below 2^31 bytes with any number of non-overlapping media data boxes in file order, with small or large headers, any number of tracks with well-formed tables and any chunk offsets", "why_tests_cant": "Successive relocations can interfere; number and positions of boxes are unbounded.", "anchors": ["IsoLib/libisomediafile/src/MP4Movies.c: MergeMovieData", "IsoLib/libisomediafile/src/MediaDataAtom.c: addMdat", "IsoLib/libisomediafile/src/ChunkOffsetAtom.c: mdatMoved"]}
{"id": "C28", "title": "Fragment defaults never change a sample's properties", "statement": "When a track fragment is written, fields equal to the fragment or track defaults are omitted; reading the fragment and applying the defaults gives every sample exactly the duration, size, flags and composition offset it had before writing.", "quantifier": "all track fragments with any runs (each non-empty), all track-level defaults", "why_tests_cant": "The omission decisions depend on all samples and three levels of defaults.", "anchors": ["IsoLib/libisomediafile/src/TrackFragmentAtom.c: calculateSize, mergeRuns", "IsoLib/libisomediafile/src/TrackFragmentRunAtom.c: calculateDefaults, setFlags, serialize, createFromInputStream", "IsoLib/libisomediafile/src/TrackFragmentHeaderAtom.c", "IsoLib/libisomediafile/src/MovieFragmentAtom.c: mergeFragments"]}
{"id": "C29", "title": "Fragment sequence numbers increase and are checked", "statement": "Fragments started one after another carry strictly increasing sequence numbers, and merging a parsed list of fragments succeeds on the sequence check exactly when the numbers strictly increase.", "quantifier": "all numbers of fragments, all sequence number lists", "why_tests_cant": "Quantifies over lists of any length.", "anchors": ["IsoLib/libisomediafile/src/MP4MovieFile.c: ISOStartMovieFragment", "IsoLib/libisomediafile/src/MP4Movies.c: MergeMovieFragments"]}
{"id": "C30", "title": "Descriptor headers carry any length below 2^28", "statement": "Writing a descriptor with a body below 2^28 bytes and parsing it back yields the same tag, the same total size and the same body, consuming exactly the written bytes; the parser also accepts every other number of length bytes that can hold the length, with the same meaning.", "quantifier": "all tags of the default class, all bodies, all numbers of length bytes", "why_tests_cant": "The length encoding has boundary cases at every 7 bits.", "anchors": ["IsoLib/libisomediafile/src/BaseDescriptor.c: MP4EncodeBaseDescriptor", "IsoLib/libisomediafile/src/MP4Descriptors.c: MP4ParseDescriptor", "IsoLib/libisomediafile/src/MP4DefaultDescriptor.c"]}
{"id": "C31", "title": "Media language codes are returned as set", "statement": "Setting a three-letter media language (characters 0x60..0x7F, so all of a..z) and getting it back returns the same three letters, also after the media header was written and parsed; every 15-bit stored code yields characters in 0x60..0x7F that encode back to it.", "quantifier": "all triples of packable characters and all 2^15 stored values", "why_tests_cant": "Settled by exhaustive proof, not by a sample.", "anchors": ["IsoLib/libisomediafile/src/MP4Media.c: MP4SetMediaLanguage, MP4GetMediaLanguage"]}
{"id": "C32", "title": "A parsed container accounts for every byte exactly once", "statement": "If parsing a container box succeeds, the sizes of its child boxes sum exactly to the container's body, the children appear in file order, free-space boxes are dropped, and the parse consumed exactly the container's size; serializing a tree of boxes and parsing it returns the same tree.", "quantifier": "all byte streams; all trees of boxes of any depth and width", "why_tests_cant": "Nesting depth and width are unbounded.", "anchors": ["IsoLib/libisomediafile/src/MP4Impl.h: PARSE_ATOM_INCLUDES, SERIALIZE_ATOM_LIST, ADD_ATOM_LIST_SIZE", "IsoLib/libisomediafile/src/MP4Atoms.c: MP4ParseAtomUsingProtoList", "IsoLib/libisomediafile/src/UnknownAtom.c"]}
{"id": "C33", "title": "Track identifiers in a movie are unique", "statement": "Whatever sequence of creating tracks (with automatic or requested IDs) is performed, no two tracks of the movie have the same ID, none has ID 0, a refused request leaves the movie unchanged, and looking up an ID returns the track created with it.", "quantifier": "all sequences of track creations with any requested IDs", "why_tests_cant": "Uniqueness is an invariant over histories and breaks only at the numeric limit.", "anchors": ["IsoLib/libisomediafile/src/MovieAtom.c: requestTrackID, newTrackWithID, newTrack", "IsoLib/libisomediafile/src/MP4Movies.c: MP4GetMovieTrack"]}
{"id": "C34", "title": "Metadata item identifiers are unique", "statement": "Whatever sequence of adding metadata items (with automatic or requested IDs) is performed, no two items have the same ID, none has ID 0, and a refused request adds nothing.", "quantifier": "all sequences of item additions with any requested 16-bit IDs", "why_tests_cant": "Invariant over histories; breaks only at particular orders or at the numeric limit.", "anchors": ["IsoLib/libisomediafile/src/ISOMeta.c: requestItemID, ISOAddMetaItem, ISOAddMetaItemWithID"]}
{"id": "C35", "title": "Item locations survive being written and parsed", "statement": "Serializing an item location box chooses field widths that fit every value, writes exactly the computed size, and parsing it back yields the same items and extents.", "quantifier": "all item lists with up to 65535 items and extents each, any 64-bit offsets and lengths", "why_tests_cant": "Widths depend on all values of two nested unbounded lists.", "anchors": ["IsoLib/libisomediafile/src/ItemLocationAtom.c: calculateSize, serialize, createFromInputStream"]}
{"id": "C36", "title": "Property associations survive being written and parsed", "statement": "Serializing an item property association box and parsing it back yields the same item IDs, property indices and essential flags.", "quantifier": "all association lists, both index widths and both versions", "why_tests_cant": "Bit packing of two fields over nested unbounded lists.", "anchors": ["IsoLib/libisomediafile/src/ItemPropertyAssociationAtom.c: serialize, createFromInputStream, calculateSize"]}
{"id": "C37", "title": "Segment indexes survive being written and parsed", "statement": "Writing a segment index with any references and parsing it returns the same references.", "quantifier": "all reference lists", "why_tests_cant": "Loop bounds depend on list contents.", "anchors": ["IsoLib/libisomediafile/src/SegmentIndexAtom.c: addReference, serialize, calculateSize, createFromInputStream"]}
{"id": "C38", "title": "User data items are retrievable by type and index", "statement": "For any history of adding and deleting user data, the items of a given type are exactly those added for it and not deleted, in order of addition; adding returns the item's index; other types are unaffected; type listing has no duplicates.", "quantifier": "all histories of additions and deletions, all types and byte strings", "why_tests_cant": "Two-level list structure under arbitrary histories.", "anchors": ["IsoLib/libisomediafile/src/UserDataAtom.c: addUserData, getItem, getEntryCount, getIndType, deleteItem, findEntryForAtomType"]}
{"id": "C39", "title": "Track references are kept without duplicates", "statement": "Adding track references of one type keeps each referenced track ID once, in order of first addition, never 0, and writing and parsing the box returns the same list.", "quantifier": "all histories of additions", "why_tests_cant": "Invariant over histories and unbounded lists.", "anchors": ["IsoLib/libisomediafile/src/TrackReferenceTypeAtom.c: addTrackID, serialize, calculateSize, createFromInputStream"]}
{"id": "C40", "title": "Auxiliary information sizes survive merging and writing", "statement": "Merging the auxiliary-size table of a fragment into that of the track gives the concatenation of the two per-sample size lists, whatever mixture of default size and explicit lists is used; writing and parsing the table preserves every per-sample size.", "quantifier": "all tables, both with and without default size", "why_tests_cant": "Four representation combinations over unbounded lists.", "anchors": ["IsoLib/libisomediafile/src/SampleAuxiliaryInformationSizesAtom.c: mergeSizes, addSizes, serialize, createFromInputStream"]}
{"id": "C41", "title": "Sub-sample information survives being written and parsed", "statement": "Any sequence of sub-sample entries added to a sub-sample information box is returned by writing and parsing the box; the 32-bit size form is selected when any size exceeds 16 bits.", "quantifier": "all entry lists with at least one sub-sample per entry, sizes 32-bit, counts 16-bit, priorities and flags 8-bit", "why_tests_cant": "Version selection depends on all added values.", "anchors": ["IsoLib/libisomediafile/src/SubSampleInformationAtom.c: addEntry, addEntry2, serialize, calculateSize, createFromInputStream"]}
{"id": "C42", "title": "Reading a track without edits yields every sample once, in order, then end of file", "statement": "A track reader on a track without edit list returns samples 1..N in order with their decoding time, composition time and duration, each exactly once, and then MP4EOF on every further call.", "quantifier": "all tracks, all numbers of calls", "why_tests_cant": "Termination and completeness over arbitrary sample counts.", "anchors": ["IsoLib/libisomediafile/src/MP4OrdinaryTrackReader.c: setupReader, getNextAccessUnit"]}
{"id": "C43", "title": "The media data box header declares the real size", "statement": "The header computed for the media data box declares exactly header plus data bytes, using the 64-bit form when the data does not fit the 32-bit form, and a parser recovers the data size from it.", "quantifier": "all data sizes up to 2^63", "why_tests_cant": "The error interval is 8 values wide near 2^32.", "anchors": ["IsoLib/libisomediafile/src/MediaDataAtom.c: calculateSize, serialize, createFromInputStream", "IsoLib/libisomediafile/src/MP4Atoms.c: MP4SerializeCommonBaseAtomFields, MP4ParseAtomUsingProtoList"]}
{"id": "C44", "title": "Movie, track and media headers survive being written and parsed", "statement": "Serializing a movie header, track header or media header and parsing it back returns the same fields, each cut to the width it has on file: in version 1 for all values, in version 0 for times below 2^32.", "quantifier": "all header field values", "why_tests_cant": "Many fields of 16 to 64 bits each; swapped or truncated fields pass symmetric tests.", "anchors": ["IsoLib/libisomediafile/src/MovieHeaderAtom.c: serialize, calculateSize, createFromInputStream", "IsoLib/libisomediafile/src/TrackHeaderAtom.c: serialize, calculateSize, createFromInputStream", "IsoLib/libisomediafile/src/MediaHeaderAtom.c: serialize, calculateSize, createFromInputStream"]}
{"id": "C45", "title": "Edit segments follow each other in movie time", "statement": "Segment n of an edit list starts in the movie where the segments before it end and is reported with its media time (-1 if empty) and duration; other segment numbers are refused; the effective duration is the sum of all; setting a track offset only adds or resizes the empty edit at the start, and is what is read back.", "quantifier": "all edit lists (sum of durations within the integer type), all segment numbers, all offsets", "why_tests_cant": "Unbounded lists; the loop continues past the segment found.", "anchors": ["IsoLib/libisomediafile/src/EditListAtom.c: getIndSegmentTime, getEffectiveDuration, getTrackOffset, setTrackOffset"]}
{"id": "C46", "title": "Sample group descriptions survive being written and parsed", "statement": "Every list of sample group descriptions (each with its own length) of a version 1 description box, written and parsed again, gives the same grouping type and the same descriptions in the same order, and the size written into the header is the number of bytes written.", "quantifier": "all lists of descriptions and all description contents", "why_tests_cant": "The layout switches between one default length and per-entry lengths depending on the whole list.", "anchors": ["IsoLib/libisomediafile/src/SampleGroupDescriptionAtom.c: serialize, calculateSize, createFromInputStream"]}
{"id": "C47", "title": "The samples of a group", "statement": "For every sample-to-group mapping and group index, getSampleGroupSampleNumbers returns exactly the numbers of all samples mapped to that group, in order.", "quantifier": "all mappings and group indices", "why_tests_cant": "The loop reports on changes of group only; whether it misses samples depends on how the mapping is arranged.", "anchors": ["IsoLib/libisomediafile/src/SampleTableAtom.c: getSampleGroupSampleNumbers"]}
{"id": "C48", "title": "Compact sample groups survive write and parse", "statement": "The compact sample-to-group box written for any consistent compact form consists of the fields of the format, has the computed size, and parsing it gives an atom that reports for every sample the group the compact form stands for.", "quantifier": "all consistent compact forms (field sizes, patterns, indices, optional parameter), all contents behind the box", "why_tests_cant": "Three field sizes out of 4, 8, 16 and 32 bits, nibble packing across entries and any number of patterns; the failing cases need dozens of patterns.", "anchors": ["IsoLib/libisomediafile/src/SampleToGroupAtom.c: PackData, GetData, serialize, calculateSize, createFromInputStream"]}
{"id": "C49", "title": "Elementary stream descriptors survive being written and parsed", "statement": "Serializing an ES descriptor (with decoder configuration, decoder specific information, SL configuration and further descriptors inside), alone or in an esds box, and parsing it back returns the same descriptor, provided the fields fit their widths, every descriptor inside is in the member for its tag, and the payload is below 2^28 bytes; adding descriptors outside the OCI extension range keeps this condition.", "quantifier": "all ES descriptors, all optional parts and all lists of descriptors inside", "why_tests_cant": "Sixteen flags and optional parts combine with nested lengths and lists of any length.", "anchors": ["IsoLib/libisomediafile/src/MP4ESDescriptor.c: addDescriptor, calculateSize, serialize, createFromInputStream", "IsoLib/libisomediafile/src/MP4DecoderConfigDescriptor.c", "IsoLib/libisomediafile/src/SLConfigDescriptor.c", "IsoLib/libisomediafile/src/MP4DefaultDescriptor.c", "IsoLib/libisomediafile/src/ESDAtom.c"]}
{"id": "C50", "title": "The index returned for a track reference leads to the track", "statement": "After MP4AddTrackReferenceWithID succeeds, MP4GetTrackReference with the returned index gives the track that was added, whether or not it was already referenced.", "quantifier": "all lists of references, all track IDs and types other than 0", "why_tests_cant": "A test adds each reference once; the index is only wrong when a reference other than the last is added again.", "anchors": ["IsoLib/libisomediafile/src/MovieTracks.c: MP4AddTrackReferenceWithID, MP4GetTrackReference", "IsoLib/libisomediafile/src/TrackReferenceTypeAtom.c: addTrackID"]}
{"id": "C51", "title": "Properties attached to an item are returned in order", "statement": "After any sequence of attaching properties to metadata items, asking for the properties of an item returns exactly those attached to it, in the order in which they were attached.", "quantifier": "all sequences of fewer than 65536 attachments, all items", "why_tests_cant": "Indices count all properties of the file, entries are found by scanning; a test uses one or two items.", "anchors": ["IsoLib/libisomediafile/src/ItemPropertiesAtom.c: addItemProperty, getPropertiesOfItem"]}
{"id": "C52", "title": "Data added to a metadata item is read back", "statement": "Whatever items are made and whatever data is added to them, in the media data box or in the item data box, reading an item returns the pieces added to it, in order.", "quantifier": "all histories of item creations and data additions, all byte strings", "why_tests_cant": "The place of the data depends on everything added before, to any item.", "anchors": ["IsoLib/libisomediafile/src/ISOMeta.c: ISOAddItemExtent, ISOAddItemExtentUsingItemData, ISOGetItemData", "IsoLib/libisomediafile/src/ItemDataAtom.c: getData", "IsoLib/libisomediafile/src/MdatDataHandler.c: copyData"]}
{"id": "C53", "title": "Reading a track with edits yields the samples of each edit, in order, then end of file", "statement": "A track reader on a track with an edit list returns, edit by edit, the samples whose time overlaps the edit, with decoding and composition times moved to the place of the edit in the presentation and the duration of the last sample of an edit cut at its end; empty edits only take time; after the last edit it returns MP4EOF on every further call.", "quantifier": "all tracks with positive sample durations, all edit lists whose edits lie in the media, all time scales, all numbers of calls", "why_tests_cant": "Edits, samples and time scales combine without bound; the end of an edit may fall anywhere in a sample.", "anchors": ["IsoLib/libisomediafile/src/MP4OrdinaryTrackReader.c: getNextSegment, setupReader, getNextAccessUnit", "IsoLib/libisomediafile/src/MP4Media.c: MP4MediaTimeToSampleNum", "IsoLib/libisomediafile/src/EditListAtom.c: getIndSegmentTime, isEmptyEdit"]}
{"id": "C54", "title": "Merging the fragments of a track gives their samples, in order", "statement": "Opening a movie whose track has its samples in fragments makes every sample of every run of every fragment available under its number, in order, with the place of its data, size, decode time, composition offset, duration, sync status, padding, dependencies and sample description that the fragment states; the first sample of a fragment has the decode time stated by the fragment.", "quantifier": "all lists of fragments with any runs of any samples, any defaults and any decode times that do not go back, any content of freshly allocated memory", "why_tests_cant": "The tables are built incrementally, and what a later run does depends on what all earlier runs had in common; the combinations are unbounded and some faults depend on the content of fresh memory.", "anchors": ["IsoLib/libisomediafile/src/MovieFragmentAtom.c: mergeFragments", "IsoLib/libisomediafile/src/TrackFragmentAtom.c: mergeRuns", "IsoLib/libisomediafile/src/SampleTableAtom.c: addSamples, setDefaultSampleEntry, setSampleDependency", "IsoLib/libisomediafile/src/MediaInformationAtom.c: addSampleReference", "IsoLib/libisomediafile/src/TimeToSampleAtom.c: addSamples, extendLastSampleDuration, getTotalDuration", "IsoLib/libisomediafile/src/MP4Media.c: MP4GetIndMediaSampleWithPad"]}
{"id": "C55", "title": "Parameter sets of a decoder configuration are returned as added", "statement": "Parameter sets that are added one by one to the stored AVC, HEVC or VVC decoder configuration of a sample description, which is parsed and written again each time, are afterwards returned by their kind and number, counted from 1, byte for byte and in the order they were added; an index outside is refused; a configuration box that is written is parsed to the same configuration.", "quantifier": "all configurations in the range of their fields, all lists of parameter sets of any kind and content, all indices", "why_tests_cant": "Sets are lost only for some combinations of kinds, profiles and sizes; numbers and contents of sets are unbounded.", "anchors": ["IsoLib/libisomediafile/src/VCConfigAtom.c: serialize, calculateSize, createFromInputStream, addParameterSet, getParameterSet", "IsoLib/libisomediafile/src/HEVCConfigAtom.c: serialize, calculateSize, createFromInputStream, addParameterSet, getParameterSet", "IsoLib/libisomediafile/src/VVCConfigAtom.c: serialize, calculateSize, createFromInputStream, addParameterSet, getParameterSet", "IsoLib/libisomediafile/src/VVCNALUConfigAtom.c: serialize, createFromInputStream", "IsoLib/libisomediafile/src/ISOSampleDescriptions.c: ISOAddVCSampleDescriptionPS, ISOGetVCSampleDescriptionPS, ISOGetHEVCSampleDescriptionPS, ISOAddVVCSampleDescriptionPS, ISOGetVVCSampleDescriptionPS"]}
{"id": "C56", "title": "Fragments written to a file are found again with their data", "statement": "Samples are added to the tracks of movie fragments, one fragment after the other, each fragment being written behind the file so far, followed by its data. Then the file keeps what was there; the fragments stand in it in order with increasing sequence numbers; reading a fragment gives exactly the tracks with samples in it, the decode time of each as the sum of all earlier durations of the track, and one run per call with the durations, sizes, composition offsets and sync flags that were asked for, and the place in the file where the data of the run is.", "quantifier": "all files written before, all numbers of tracks and fragments, all sequences of calls in each, all samples, and any content of uninitialised memory", "why_tests_cant": "The places depend on the sizes of everything written before; a base or offset that is wrong by the size of an optional box shows only for some combinations of tracks with and without samples.", "anchors": ["IsoLib/libisomediafile/src/TrackFragmentAtom.c: addSamples, mdatMoved, calculateSize, serialize, createFromInputStream, mergeRuns, calculateDataEnd", "IsoLib/libisomediafile/src/MovieFragmentAtom.c: addAtom, calculateSize, serialize, createFromInputStream, mergeFragments", "IsoLib/libisomediafile/src/MovieExtendsAtom.c: maketrackfragments", "IsoLib/libisomediafile/src/MP4MovieFile.c: ISOStartMovieFragment, ISOAddDelayToTrackFragmentDecodeTime, MP4WriteMovieToFile"]}
{"id": "C57", "title": "Fragments by any writer are understood as the standard says", "statement": "A movie fragment box in the layout of the standard, with any choice of the optional fields of its track fragment headers and track runs, is read as: its number and size, and for each track fragment the track, the decode time, and for each run the samples with the fields of their own or the defaults of the fragment or of the track, and the place of their data: at the offset given, counted from the base, or else behind the data of the run before; the base being the one given, or the start of the fragment box, or the end of the data of the track fragment before.", "quantifier": "all files, all numbers of track fragments, runs and samples, all choices of optional fields, all values", "why_tests_cant": "There are 2^13 choices of optional fields for each track fragment with one run, and the place of a run depends on the choices and sizes of all before it; files of the own writer use only some of them.", "anchors": ["IsoLib/libisomediafile/src/TrackFragmentHeaderAtom.c: createFromInputStream", "IsoLib/libisomediafile/src/TrackFragmentRunAtom.c: createFromInputStream", "IsoLib/libisomediafile/src/TrackFragmentDecodeTimeAtom.c: createFromInputStream", "IsoLib/libisomediafile/src/TrackFragmentAtom.c: createFromInputStream, mergeRuns, calculateDataEnd", "IsoLib/libisomediafile/src/MovieFragmentAtom.c: addAtom, createFromInputStream, mergeFragments"]}
{"id": "C58", "title": "Samples added in fragments are reported after opening the file", "statement": "Samples are added to the tracks of movie fragments, the fragments are written behind a movie without samples, and the file is opened. Then each track has exactly the samples added to it, in the order of the calls; each is reported with its size, composition offset and sync status, the decode time that follows from the durations and delays asked for, and a place in the file at which its bytes are.", "quantifier": "all files written before, all numbers of tracks and fragments, all sequences of calls and delays in each, all samples, and any content of uninitialised memory, under the conditions in TrackPlayable and InRange", "why_tests_cant": "The tables of each track are built by merging runs one by one, with special cases for the first run, for equal sizes, for sync samples and for gaps; what comes out depends on the whole sequence of calls of all fragments.", "anchors": ["IsoLib/libisomediafile/src/MP4Movies.c: parseMovie, MergeMovieFragments", "IsoLib/libisomediafile/src/MovieFragmentAtom.c: mergeFragments", "IsoLib/libisomediafile/src/TrackFragmentAtom.c: addSamples, mergeRuns", "IsoLib/libisomediafile/src/MediaInformationAtom.c: addSampleReference", "IsoLib/libisomediafile/src/SampleTableAtom.c: addSamples", "IsoLib/libisomediafile/src/MP4Media.c: MP4GetIndMediaSampleWithPad"]}
{"id": "C59", "title": "Item information is kept and comes back from a file", "statement": "Items of a meta box are given names, protection indexes, extensions and types, and are hidden. Then the extension, type and hidden state reported for an item are those last set for it, and an item is found by its name; calls for items without information and hiding the primary item have no effect. The information box is written in the layout of the standard, and reading it gives the same answers.", "quantifier": "all sequences of calls, all items, names, types, extensions and URIs; in a file all values in range of their fields (Fits), without content types and encodings", "why_tests_cant": "An entry can be changed after others were added, replaced by a second one for the same item, and changes its version with each kind of call; the layout depends on the version and the type, and the reader finds strings by their terminators.", "anchors": ["IsoLib/libisomediafile/src/ISOMeta.c: ISOSetItemInfo, ISOSetItemInfoExtension, ISOSetItemInfoItemType, ISOHideItem, ISOFindItemByName", "IsoLib/libisomediafile/src/ItemInfoAtom.c: getEntry, serialize, createFromInputStream", "IsoLib/libisomediafile/src/ItemInfoEntryAtom.c: calculateSize, serialize, createFromInputStream"]}
{"id": "C60", "title": "References between items are kept and written", "statement": "References of several types are added from items to other items, one by one or as a list. Then the references reported for an item and a type are those added, in that order, the index returned for a new one is its place, and the reference with an index is the one at that place. The reference box is written in the layout of the standard, with one list for each item and type, and reading it gives the same references.", "quantifier": "all sequences of calls, items, types and targets; a list only as the first references of an item and type, at most 65535 for each; reading: all boxes of version 1", "why_tests_cant": "References of different items and types are interleaved in one list of boxes that grow in place, and the result depends on the order of all calls.", "anchors": ["IsoLib/libisomediafile/src/ISOMeta.c: ISOAddItemReference, ISOAddItemReferences, ISOGetItemReferences, ISOGetItemReference", "IsoLib/libisomediafile/src/ItemReferenceAtom.c: serialize, createFromInputStream", "IsoLib/libisomediafile/src/SingleItemTypeReferenceAtom.c: serialize, createFromInputStream"]}
{"id": "C61", "title": "Entity groups are kept and come back from a file", "statement": "Entity groups are made in a meta box and entities are added to them. Then each group made is reported once, in the order in which they were made, with its type, its ID and its entities in the order in which they were added; a group is refused exactly if its ID is in use, and an entity exactly if there is no group with the ID. The groups are written in the layout of the standard and reading them gives the same groups; groups of other types, versions and with further data are read too.", "quantifier": "all sequences of calls, all types, IDs and entities in range; all boxes with groups of any type, version and flags", "why_tests_cant": "Groups are told apart only by searching a list that grows with each call, and refused calls lie between the others.", "anchors": ["IsoLib/libisomediafile/src/ISOMeta.c: ISONewEntityGroup, ISOAddEntityIDToGroup, ISOGetEntityIDCnt, ISOGetEntityGroupEntries", "IsoLib/libisomediafile/src/GroupsListBox.c: serialize, createFromInputStream", "IsoLib/libisomediafile/src/EntityToGroupBox.c: calculateSize, serialize, createFromInputStream"]}
{"id": "C62", "title": "Brands are kept and come back from a file", "statement": "Brands are set and added for a file. Then the major brand and minor version reported are those last set, and a brand is reported as compatible exactly if it was given in a call, was compatible in the file that was read, or was a major brand that got replaced; no brand is entered twice. The file type box is written in the layout of the standard, and reading it, by whatever writer, gives the same brands. Segment and track type boxes written are read back.", "quantifier": "all sequences of calls with brands other than zero, from a new file and from every file type box with at least one compatible brand", "why_tests_cant": "Whether a brand is entered depends on all calls before, including major brands replaced earlier.", "anchors": ["IsoLib/libisomediafile/src/MJ2FileTypeAtom.c: getStandard, addStandard, setBrand, serialize, createFromInputStream", "IsoLib/libisomediafile/src/SegmentTypeAtom.c: createFromInputStream, serialize", "IsoLib/libisomediafile/src/TrackTypeAtom.c: createFromInputStream, serialize", "IsoLib/libisomediafile/src/MP4Movies.c: ISOSetMovieBrand, ISOSetMovieCompatibleBrand, ISOIsMovieCompatibleBrand"]}
{"id": "C63", "title": "Auxiliary information added for a sample is what is read for it", "statement": "Kinds of sample auxiliary information are set up for a media, with or without a size common to all samples, and pieces are added, between samples of this and other tracks. Then for each kind and each sample that has a piece, the piece read is the one added for it, asking for more than was added gives end of file, and the samples are read as before. The box with the offsets is written in the layout of the standard and reading it gives the same offsets; media and box can be written and information of fragments is merged.", "quantifier": "all histories of set-ups, additions of pieces, additions of samples and reads on a new media, with any number of kinds; all offset boxes", "why_tests_cant": "The pieces lie among the data of all tracks and kinds, so their places depend on the whole history.", "anchors": ["IsoLib/libisomediafile/src/MP4Media.c: MP4SetupSampleAuxiliaryInformation, MP4AddSampleAuxiliaryInformation, MP4GetSampleAuxiliaryInformationForSample", "IsoLib/libisomediafile/src/SampleAuxiliaryInformationOffsetsAtom.c: serialize, createFromInputStream, addOffsets, mdatMoved, mergeOffsets", "IsoLib/libisomediafile/src/SampleTableAtom.c: getSampleAuxiliaryInformation", "IsoLib/libisomediafile/src/MediaInformationAtom.c: mdatMoved", "IsoLib/libisomediafile/src/TrackFragmentAtom.c: mergeSampleAuxiliaryInformation"]}
{"id": "C64", "title": "Bits and numbers of a parameter set are read as they were written", "statement": "A parameter set is a sequence of fields u(n) and ue(v), in any order and number, to which emulation prevention bytes were added. Reading the fields with GetBits and read_golomb_uev gives their values, wherever the byte boundaries and the prevention bytes fall, and reading beyond the last bit gives an error.", "quantifier": "all sequences of fields of 1 to 32 bits and of Exp-Golomb numbers below 2^32 - 1, all contents after them, with and without emulation prevention", "why_tests_cant": "Byte boundaries, emulation prevention and code lengths combine without bound.", "anchors": ["IsoLib/libisomediafile/src/ISOSampleDescriptions.c: BitBuffer_Init, GetBits, GetBytes, read_golomb_uev"]}
{"id": "C65", "title": "The decoder configuration says what the sequence parameter set says", "statement": "ISONewAVCSampleDescription, ISONewHEVCSampleDescription and ISONewVVCSampleDescription read the sequence parameter set by the syntax of its standard and make a configuration with its profile, compatibility, level, chroma format, bit depths, number of temporal layers and, for H.265 and H.266, size; the parameter sets given are stored in it. Every set valid by the standard is taken.", "quantifier": "all values of the fields of the syntax, including sub-layers, windows, sub-pictures and what follows; all picture and video parameter sets", "why_tests_cant": "The fields have variable length and optional parts, so a mistake in one shifts all the others for particular combinations only.", "anchors": ["IsoLib/libisomediafile/src/ISOSampleDescriptions.c: ISONewAVCSampleDescription, ISONewHEVCSampleDescription, ISONewVVCSampleDescription", "IsoLib/libisomediafile/src/VCConfigAtom.c: addParameterSet", "IsoLib/libisomediafile/src/HEVCConfigAtom.c: addParameterSet", "IsoLib/libisomediafile/src/VVCConfigAtom.c: addParameterSet"]}
{"id": "C66", "title": "A sample asked for by time is the one at that time", "statement": "For every track built by the writing interface and every media time, MP4GetMediaSample returns the first sample that starts at that time or is playing then, with its bytes, size, decoding and composition time, duration and flags, and an error if there is none; MP4GetElementaryStreamPacket puts the same sample into an SL packet; and MP4GetMediaNextInterestingTime returns the nearest start of a sample in the direction asked for, counting the given time itself exactly if MP4NextTimeEdgeOK is set.", "quantifier": "all histories of additions, all composition offsets and sync sample tables, all times, both directions and all flags", "why_tests_cant": "The answer depends on the run lengths of the duration table, the position in the run, boundaries, and cached lookups; the wrong answers appear only at the inner starts of a run.", "anchors": ["IsoLib/libisomediafile/src/MP4Media.c 1386-1461", "IsoLib/libisomediafile/src/MP4Media.c 1541-1713", "IsoLib/libisomediafile/src/MP4SLPacket.c 221-333", "IsoLib/libisomediafile/src/TimeToSampleAtom.c 238-337"]}
{"id": "C67", "title": "The composition-to-decode box sums up the composition times of a track", "statement": "For a track with signed composition offsets, after any history of additions, the cslg box holds the least and greatest offset, the least shift that makes all offsets non-negative, the least composition time and the end of the sample composed last; the box survives being written and parsed; and the properties set for the fragments of a track replace those set before.", "quantifier": "all histories of batches with any durations and offsets whose times are 32-bit numbers; all field values; all movie extends boxes and histories of settings", "why_tests_cant": "The fields depend on every batch added so far and on when the flag was set; the end is wrong by the duration of one sample, and the second setting for a track is stored where readers do not look.", "anchors": ["IsoLib/libisomediafile/src/CompositionToDecodeAtom.c 40-197", "IsoLib/libisomediafile/src/SampleTableAtom.c 297-359", "IsoLib/libisomediafile/src/MP4Media.c 1085-1113", "IsoLib/libisomediafile/src/MovieExtendsAtom.c 111-163", "IsoLib/libisomediafile/src/MovieExtendsAtom.c 265-290", "IsoLib/libisomediafile/src/TrackExtensionPropertiesAtom.c 39-63"]}
{"id": "C68", "title": "Boxes with fixed fields survive being written and parsed", "statement": "For each of vmhd, smhd, hmhd, trex, prft, frma, btrt, bitr, pcmC, damr, dawp, iSFM, iSLT, mere, pitm, stsh and stdp: for all values of the fields the box is written in the layout of its standard with the right size, and parsing it gives the same fields and leaves what follows.", "quantifier": "all field values of the widths in the standard, all versions and flags, tables of any length that fit a 32-bit size", "why_tests_cant": "The order and width of fields must agree between three functions per box for all values; a test with a few values misses exchanged equal fields, cut widths and the layouts of other versions.", "anchors": ["IsoLib/libisomediafile/src/VideoMediaHeaderAtom.c 36-91", "IsoLib/libisomediafile/src/SoundMediaHeaderAtom.c 36-85", "IsoLib/libisomediafile/src/HintMediaHeaderAtom.c 36-91", "IsoLib/libisomediafile/src/TrackExtendsAtom.c 36-93", "IsoLib/libisomediafile/src/ProducerReferenceTimeAtom.c 45-104", "IsoLib/libisomediafile/src/OriginalFormatAtom.c 40-89", "IsoLib/libisomediafile/src/BitRateAtom.c 38-107", "IsoLib/libisomediafile/src/PCMConfigAtom.c 35-96", "IsoLib/libisomediafile/src/AMRSpecificInfoAtom.c 38-95", "IsoLib/libisomediafile/src/AMRWPSpecificInfoAtom.c 38-88", "IsoLib/libisomediafile/src/ISMASampleFormatAtom.c 40-93", "IsoLib/libisomediafile/src/ISMASaltAtom.c 40-89", "IsoLib/libisomediafile/src/MetaboxRelationAtom.c 38-94", "IsoLib/libisomediafile/src/PrimaryItemAtom.c 35-84", "IsoLib/libisomediafile/src/ShadowSyncAtom.c 49-118", "IsoLib/libisomediafile/src/DegradationPriorityAtom.c 44-107"]}
{"id": "C69", "title": "Boxes that end with a string survive being written and parsed", "statement": "Copyright, extended language, ISMA key management, (compatible) scheme type, handler and data reference boxes are written with their string and its NUL in the layout of the standard and parsed back to the same fields, for all strings without NUL; data references come back from the table by their number and from MP4GetMediaDataReference as they were given; and no string of a file makes the parser, or a writer of what was parsed, read or write outside its buffers.", "quantifier": "all strings of any length, all versions, flags and field values, all tables of references of any length, all bytes after the box", "why_tests_cant": "Failures depend on the contents of a string: a handler name whose first byte happens to be its length, a name of more than 237 bytes, a string whose NUL is missing; a test with ordinary names never meets them, and reading past a heap buffer usually goes unnoticed.", "anchors": ["IsoLib/libisomediafile/src/HandlerAtom.c:44-182", "IsoLib/libisomediafile/src/DataEntryURLAtom.c:102-181", "IsoLib/libisomediafile/src/DataEntryURNAtom.c:103-195", "IsoLib/libisomediafile/src/DataReferenceAtom.c:54-209", "IsoLib/libisomediafile/src/CopyrightAtom.c:44-102", "IsoLib/libisomediafile/src/ExtendedLanguageTag.c:43-96", "IsoLib/libisomediafile/src/ISMAKMSAtom.c:46-113", "IsoLib/libisomediafile/src/SchemeTypeAtom.c:49-142", "IsoLib/libisomediafile/src/CompatibleSchemeTypeAtom.c:42-165", "IsoLib/libisomediafile/src/MP4Media.c:1157-1347"]}
{"id": "C70", "title": "Sample entries and the sample description box survive being written and parsed", "statement": "An entry of any of the library's classes (visual, audio, protected, restricted, metadata, boxed metadata, generic, volumetric, haptic) with any boxes that survive by themselves is written in the layout of the standard, with the computed size, and parsed back to the same fields and boxes; the sample description box finds the class of each entry by its type, returns all entries in order, numbers them from one, and rejects a wrong count; and boxes in an entry that are dropped or broken, padding, and the QuickTime version of the sound description do not confuse the reader.", "quantifier": "all field values, all lists of boxes of any length and of any class, all lists of entries of any length, all bytes after the box", "why_tests_cant": "An entry holds any list of boxes of other classes, and a sample description any list of entries; tests have one entry with one or two boxes, so a size that is wrong for some nesting, a class that is chosen wrongly for one type, or a reader that fails on a broken box is not met.", "anchors": ["IsoLib/libisomediafile/src/VisualSampleEntryAtom.c:37-114", "IsoLib/libisomediafile/src/AudioSampleEntryAtom.c:38-138", "IsoLib/libisomediafile/src/EncVisualSampleEntryAtom.c:52-163", "IsoLib/libisomediafile/src/EncAudioSampleEntryAtom.c:53-150", "IsoLib/libisomediafile/src/RestrictedVideoSampleEntry.c:54-152", "IsoLib/libisomediafile/src/MPEGSampleEntryAtom.c:46-98", "IsoLib/libisomediafile/src/GenericSampleEntryAtom.c:53-115", "IsoLib/libisomediafile/src/TextMetaSampleEntry.c:58-186", "IsoLib/libisomediafile/src/XMLMetaSampleEntry.c:63-208", "IsoLib/libisomediafile/src/BoxedMetadataSampleEntry.c:33-115", "IsoLib/libisomediafile/src/SampleDescriptionAtom.c:64-158", "IsoLib/libisomediafile/src/ISOSampleDescriptions.c:49-67", "IsoLib/libisomediafile/src/MP4Impl.h:221-243"]}
{"id": "C71", "title": "Protecting a sample entry and removing the protection gives the entry back", "statement": "Protecting a visual or audio sample entry by ISMACryp writes an entry of type encv or enca that has the same fields and boxes and, after them, the protection box of the standard with the former type, the scheme, the address of the key management system, the format and the salt; removing the protection gives back the entry byte for byte together with these parameters, whatever other boxes are in the scheme information and in whatever order; a protection box with a foreign or repeated part, a foreign scheme or a wrong kind of entry is an error; and for a restricted entry the former type, the scheme and the scheme information can be read back and the restriction removed.", "quantifier": "all field values, all lists of boxes of any length and any class in the entry and in the scheme information, all addresses without NUL of any length, all salts and formats", "why_tests_cant": "Protecting is parsing, editing and writing an entry with any list of boxes inside; a test has one entry with one box and one address, so a size that is wrong for another nesting, a box that is lost or moved, or a parameter that is absent is not met.", "anchors": ["IsoLib/libisomediafile/src/ISMASecurity.c:44-252", "IsoLib/libisomediafile/src/EncAudioSampleEntryAtom.c:152-368", "IsoLib/libisomediafile/src/EncVisualSampleEntryAtom.c:52-163", "IsoLib/libisomediafile/src/RestrictedVideoSampleEntry.c:154-260", "IsoLib/libisomediafile/src/RestrictedVideoSampleEntry.c:300-421", "IsoLib/libisomediafile/src/SecurityInfoAtom.c:55-126", "IsoLib/libisomediafile/src/RestrictedSchemeInfoAtom.c:70-151", "IsoLib/libisomediafile/src/SchemeInfoAtom.c:48-101", "IsoLib/libisomediafile/src/ISOSampleDescriptions.c:1393-1477"]}
{"id": "C72", "title": "Channel layout, downmix and loudness boxes survive being read and written", "statement": "A channel layout, a downmix instruction or a loudness box with any values of its fields is written in the layout of the standard with the computed size and parsed back to the same values, a box that was read is written again as the same bytes, the loudness box returns its track and album boxes in order, and bytes of a file that do not form such a box are an error and never a store outside a block or a failed assertion.", "quantifier": "all field values, all lists of positions, coefficients, measurements and boxes of any length, all versions and flags, all bytes after the box, and whether or not the allocator gives more bytes than it is asked for", "why_tests_cant": "A list that is read into a block that is too small by a few bytes goes unnoticed with most allocators, and a test that writes and reads one layout does not read a layout, write it and read it again, nor one with explicit angles, objects or more than 65536 coefficients.", "anchors": ["IsoLib/libisomediafile/src/ChannelLayoutAtom.c:44-330", "IsoLib/libisomediafile/src/DownMixInstructionsAtom.c:40-170", "IsoLib/libisomediafile/src/LoudnessBaseAtom.c:40-220", "IsoLib/libisomediafile/src/LoudnessAtom.c:40-205"]}
{"id": "C73", "title": "Keys of boxed metadata are found again, and the reader gives the data of the chosen key", "statement": "Metadata added to a boxed metadata entry gets the first number from the wished one on that is not used, and after the entry is written and read the count and the configuration of each key are those that were added, with its declaration, locale and setup; two boxes of a kind in a key or two keys of a number are an error; and the reader of a track gives for a sample the data in the box of the chosen key.", "quantifier": "all sequences of requests, all numbers, namespaces, values, texts and setups, all boxes of other classes in a key, all tables of any length, all samples of any number of boxes and all bytes after them", "why_tests_cant": "A test adds two or three keys with ASCII values and reads a sample with one box per key; values with bytes over 127, an empty locale, the number 0, a number that is the type of another box, and two boxes of a key in a sample are not tried.", "anchors": ["IsoLib/libisomediafile/src/MetadataKeyTableBox.c:51-211", "IsoLib/libisomediafile/src/MetadataKeyBox.c:34-121", "IsoLib/libisomediafile/src/MetadataKeyDeclarationBox.c:39-170", "IsoLib/libisomediafile/src/MetadataLocaleBox.c:35-98", "IsoLib/libisomediafile/src/MetadataSetupBox.c:39-150", "IsoLib/libisomediafile/src/ISOSampleDescriptions.c:1675-1876", "IsoLib/libisomediafile/src/MP4OrdinaryTrackReader.c:132-165"]}
{"id": "C74", "title": "Object descriptors and the commands that carry them survive being written and read", "statement": "An object descriptor, an initial object descriptor and every descriptor inside them, an update command for object descriptors or elementary streams, any other command, and the iods box are written with the layout of the standard and read back with every part in its place, provided the fields fit their widths, the descriptors inside are in the list for their kind, and the size is below 2^28 bytes; a copy of a descriptor is equal to it; adding a descriptor adds it and nothing else.", "quantifier": "all object descriptors and initial object descriptors with any number of streams, references, pointers, object content information and extensions; all commands with any number of them", "why_tests_cant": "Descriptors nest four levels deep, with six lists of any length in each object descriptor.", "anchors": ["IsoLib/libisomediafile/src/MP4ObjectDescriptor.c", "IsoLib/libisomediafile/src/MP4InitialObjectDescriptor.c", "IsoLib/libisomediafile/src/MP4ES_ID_IncDescriptor.c", "IsoLib/libisomediafile/src/MP4ES_ID_RefDescriptor.c", "IsoLib/libisomediafile/src/MP4IPMPDescriptorPointer.c", "IsoLib/libisomediafile/src/MP4Descriptors.c: MP4ParseDescriptor, MP4CopyDescriptor", "IsoLib/libisomediafile/src/MP4Commands.c: MP4ParseCommand", "IsoLib/libisomediafile/src/ODUpdateCommand.c", "IsoLib/libisomediafile/src/ESUpdateCommand.c", "IsoLib/libisomediafile/src/MP4DefaultCommand.c", "IsoLib/libisomediafile/src/ObjectDescriptorAtom.c"]}
{"id": "C75", "title": "Object descriptor streams show each stream as its track is described", "statement": "When frames of object descriptor commands are added to an object descriptor track, each is stored as commands without stream descriptors, and the streams it speaks of are appended to the track reference. When a frame is read, also after others were added, its commands come back as they were given, with each stream described by its track: the descriptor of the sample description with the track ID, what it depends on, its clock and the configuration of packets. This holds when no stream is named twice and the stream descriptors have no pointers that name streams. Missing tracks, numbers never given out and several frames at once are refused.", "quantifier": "all sequences of frames with any number of commands, descriptors, streams and pointers, all references there were before and come after, all movies", "why_tests_cant": "The numbers depend on every frame added before; frames, commands and descriptors are lists of any length.", "anchors": ["IsoLib/libisomediafile/src/MediaAtom.c: MP4ParseODFrame, storeIPMPDescriptorPointers, addSamples", "IsoLib/libisomediafile/src/MP4SLPacket.c: rewriteODFrame, rewriteIPMPDescriptorPointers", "IsoLib/libisomediafile/src/MP4Movies.c: makeESD", "IsoLib/libisomediafile/src/TrackReferenceTypeAtom.c: addTrackID"]}
{"id": "C76", "title": "A movie's initial object descriptor says what was put in it", "statement": "After a movie is created with an object descriptor ID and profiles, and tracks and descriptors were added, the inline flag set and the descriptor asked for, in any order, the descriptor holds the tracks in order, the flag set last, the profiles, and the descriptors that may be added, and nothing else. Asking for it gives the bytes of an initial object descriptor with each track described as in C75 and changes nothing. It is the same after the box is written and read. For exchange files this holds until the file is read again.", "quantifier": "all IDs, profiles, movies and configurations, all sequences of additions, settings and questions", "why_tests_cant": "Asking changes the descriptor and puts it back; only an invariant over all sequences shows that nothing stays.", "anchors": ["IsoLib/libisomediafile/src/MP4Movies.c: MP4NewMovieExt, MP4GetMovieInitialObjectDescriptorUsingSLConfig, MP4GetMovieObjectDescriptorUsingSLConfig, MP4MovieAddTrackES_IDToIOD, MP4AddDescToMovieIOD, MP4MovieCreateDescriptors, MP4GetMovieIODInlineProfileFlag, MP4SetMovieIODInlineProfileFlag, MP4GetMovieProfilesAndLevels", "IsoLib/libisomediafile/src/MovieTracks.c: MP4AddTrackToMovieIOD"]}
{"id": "C77", "title": "A track is in the group it was last put in", "statement": "After any calls that put a track in groups, asking for a type gives the ID given last for it, and fails if there was none; there is one group of a type. This is the same after the track group box is written and read, for types that are not 0, uuid, free or skip. What a group has after its ID is not kept; the stereo video group's own functions keep the view, where shifting into the sign bit is defined.", "quantifier": "all sequences of additions, all types and IDs, all lists of groups with any bytes after the ID", "why_tests_cant": "The order and repetition of calls is unbounded; a test with plain groups does not show that extensions are lost.", "anchors": ["IsoLib/libisomediafile/src/TrackGroupAtom.c: serialize, calculateSize, findAtomOfType, createFromInputStream", "IsoLib/libisomediafile/src/TrackGroupTypeAtom.c", "IsoLib/libisomediafile/src/MovieTracks.c: MP4AddTrackGroup, MP4GetTrackGroup", "IsoLib/libisomediafile/src/StereoVideoGroupAtom.c", "IsoLib/libisomediafile/src/MediaAtom.c: MP4ParseODFrame"]}
{"id": "C78", "title": "A subsegment index is read as it is and written as it is read", "statement": "The ranges of all subsegments are read with the levels and sizes in the file. Writing gives the same bytes exactly if all levels are 0 and each range of the i-th subsegment equals its i-th one; otherwise other bytes are written or writing fails.", "quantifier": "all tables of subsegments and ranges that fit the fields", "why_tests_cant": "A table with one subsegment of level 0 is written correctly; the faults depend on numbers and positions.", "anchors": ["IsoLib/libisomediafile/src/SubsegmentIndexAtom.c: serialize, calculateSize, createFromInputStream, addSubsegment, addSubsegmentRange"]}
{"id": "C79", "title": "Boxes of JPEG 2000, H.263 and stereo video are written as the standards say and read back", "statement": "Color specifications of methods 1 and 2 and the decoder information of H.263 with the boxes in it survive writing and reading, and so does a stereo video box without boxes in it if its upper reserved bits are 0. Image headers and signatures are read as they are in the file, but are written in the byte order of the machine: the bytes are right exactly if the fields are the same in both orders (little-endian) or the small fields are 0 (big-endian). The first item of a bits-per-component box is always a 0 that was not added.", "quantifier": "all field values that fit, all boxes that survive by themselves, both byte orders of the machine, all following bytes", "why_tests_cant": "Whether the bytes are right depends on the machine; a test that writes and reads on one machine and compares symmetric values sees nothing.", "anchors": ["IsoLib/libisomediafile/src/MJ2ImageHeaderAtom.c: serialize, createFromInputStream", "IsoLib/libisomediafile/src/MJ2SignatureAtom.c: serialize", "IsoLib/libisomediafile/src/MJ2BitsPerComponentAtom.c: addbpcItem, createFromInputStream", "IsoLib/libisomediafile/src/MJ2ColorSpecificationAtom.c: serialize, createFromInputStream", "IsoLib/libisomediafile/src/H263SpecificInfoAtom.c: createFromInputStream", "IsoLib/libisomediafile/src/StereoVideoAtom.c: serialize, createFromInputStream"]}
{"id": "C80", "title": "The protections of items are found by their index and survive writing and reading", "statement": "After any history of making protections and adding boxes to them, the index that was returned finds the scheme, version, address and the first box of each type that was given, any other index is refused, and a program that reads the written box is told the same; this holds for fewer than 65536 protections. A box is read exactly if the number in it is that of its boxes.", "quantifier": "all histories of calls, all schemes, addresses and boxes that survive by themselves, all indices", "why_tests_cant": "The index, the count and the boxes interact over unbounded histories; limits are at 65536 entries.", "anchors": ["IsoLib/libisomediafile/src/ISOMeta.c: ISONewMetaProtection, ISOAddMetaProtectionInfo, ISOGetMetaProtection, ISOGetMetaProtectionInfo", "IsoLib/libisomediafile/src/ItemProtectionAtom.c: serialize, calculateSize, createFromInputStream"]}
{"id": "C81", "title": "Tracks last as long as their edits or samples, movies as long as their longest track", "statement": "After any history of adding samples to any tracks of a movie, ending media edits and asking for durations, a track is reported to last as long as its segments together or, without any, as its samples converted to the time scale of the movie, and the movie as long as the longest of the tracks as they were last counted; media inserted at the end becomes a segment of that duration and an offset becomes an empty segment; as long as durations fit 32 bits.", "quantifier": "all numbers of tracks, all histories, all time scales, edit lists and sample durations that fit 32 bits", "why_tests_cant": "Durations depend on the order of calls over several tracks; counting is only done by some of the calls.", "anchors": ["IsoLib/libisomediafile/src/TrackAtom.c: calculateDuration, adjustedDuration", "IsoLib/libisomediafile/src/MovieAtom.c: calculateDuration", "IsoLib/libisomediafile/src/MovieTracks.c: MP4GetTrackDuration, MP4InsertMediaIntoTrack, MP4SetTrackOffset, MP4GetTrackOffset", "IsoLib/libisomediafile/src/MP4Media.c: MP4EndMediaEdits"]}
{"id": "C82", "title": "Fragments are shown one after the other when they are merged into a track", "statement": "Merging any number of fragments that follow each other into a track adds, if the track has edits, one segment for each that shows just the part of the media it brought, and otherwise leaves it without edits; the track then lasts as long as its segments or its media; an empty fragment adds a segment of its duration and no media.", "quantifier": "all numbers of fragments, all decode times in order, all sample durations, edit lists and time scales that fit 32 bits", "why_tests_cant": "Every fragment changes the state that the next depends on; rounding adds up over many fragments.", "anchors": ["IsoLib/libisomediafile/src/MovieFragmentAtom.c: mergeFragments", "IsoLib/libisomediafile/src/MovieTracks.c: MP4InsertMediaIntoTrack", "IsoLib/libisomediafile/src/EditListAtom.c: insertSegment", "IsoLib/libisomediafile/src/MP4OrdinaryTrackReader.c: getNextSegment"]}
{"id": "C83", "title": "Meta boxes are found by their types and keep what they are given", "statement": "A file, a movie or a track can have meta boxes for any number of handler types, one for each; each is found by its type, keeps the boxes, the data and the primary item that are given to it, and is the same after writing and reading; so are the relations of meta boxes. Holds for up to two meta boxes of different types; relations are never found.", "quantifier": "all histories of new meta boxes, all handler types, all histories of data and primary items, all lists of boxes of any class in a meta box, QuickTime or not, all containers and relations", "why_tests_cant": "What is found depends on the order and the types of all calls before; the boxes inside are of any class; a damaged box is read in two ways.", "anchors": ["IsoLib/libisomediafile/src/MetaAtom.c: addAtom", "IsoLib/libisomediafile/src/MetaAtom.c: createFromInputStream", "IsoLib/libisomediafile/src/MetaAtom.c: getData", "IsoLib/libisomediafile/src/AdditionalMetaDataContainerAtom.c: addMeta", "IsoLib/libisomediafile/src/AdditionalMetaDataContainerAtom.c: getMeta", "IsoLib/libisomediafile/src/ISOMeta.c: ISONewFileMeta", "IsoLib/libisomediafile/src/ISOMeta.c: ISOGetFileMeta", "IsoLib/libisomediafile/src/ISOMeta.c: ISOAddPrimaryData", "IsoLib/libisomediafile/src/ISOMeta.c: ISOAddMetaBoxRelation"]}
{"id": "C84", "title": "The data of an item is what the file says", "statement": "When a file with items in meta boxes is opened, the data read for every item is the concatenation of its extents, each at base offset plus extent offset of the file, of the item data box or of another item, as ISO/IEC 14496-12 8.11.3 says; this holds for any number of media data boxes that are merged, any number of items and extents and items made of items to any depth. An item made of pieces of other items has these pieces in the order of the calls. Writing a file and opening it again leaves the items as they were, and the file says where their data is.", "quantifier": "All files (below 2 GiB) with any number of media data boxes in any places, all lists of items, extents, references and item data, all depths of items made of items, all histories of calls that add pieces of other items.", "why_tests_cant": "The places of the data depend on how many media data boxes come before, where they are, and whether base offsets and extent offsets happen to lie in the ranges of the boxes; items can be nested to any depth. Tests see a few files, mostly with one item at the beginning of one media data box, where all of the mistakes cancel.", "anchors": ["IsoLib/libisomediafile/src/ISOMeta.c:1548-1695", "IsoLib/libisomediafile/src/ISOMeta.c:598-645", "IsoLib/libisomediafile/src/ItemLocationAtom.c:282-328", "IsoLib/libisomediafile/src/MP4Movies.c:279-342", "IsoLib/libisomediafile/src/MP4MovieFile.c:120-147"]}
{"id": "C85", "title": "Opening whole files", "statement": "A file is a sequence of boxes in any order. If each can be read, none of moov, ftyp, 'jP  ', jp2h, meta and meco occurs twice, and there is a moov or ftyp, the file opens; what is found is exactly those boxes, all media data boxes with data (less than 2 GiB each; none if opened in place) and all fragments with their places; other boxes, free space, 64-bit sizes and a last box of size 0 make no difference. Two of one kind, neither moov nor ftyp, an empty file, or a box that cannot be read: refused. For any file of less than 2 GiB that opens, every chunk of every track and every item that lies in a media data box is read, at its new place in the merged data, as the bytes of the file.", "quantifier": "all lists of boxes with any payloads and readers; any file (byte string) for the statements about data; all contents of memory", "why_tests_cant": "Orders of boxes, numbers and sizes of media data boxes are unbounded; the loop, the merging and the relocation have to agree for each of them.", "anchors": ["IsoLib/libisomediafile/src/MP4Movies.c: parseMovie 100-236", "IsoLib/libisomediafile/src/MP4Movies.c: MergeMovieFragments 238-277", "IsoLib/libisomediafile/src/MP4Movies.c: MergeMovieData 279-342", "IsoLib/libisomediafile/src/MediaDataAtom.c: createFromInputStream 226-280"]}
{"id": "C86", "title": "Samples and items in other files", "statement": "A data reference is for the movie's own file (media data in memory, or the file opened in place), or has a location: a file:// URL, or a name beside the movie. The path made of it is what comes after file://, or the directory of the movie followed by the name, and stays inside of its buffer. Any sequence of reads, tests and closes on a track gives for each read exactly the bytes of the file its entry is for, however the reader goes from one file to another; entries that do not exist, and places beyond media data in memory, are refused without changing that. The data of an item is the pieces of its file, and never depends on what was read before.", "quantifier": "all file systems, data references and names; all sequences of calls; all items with extents inside of the file", "why_tests_cant": "The handler is kept from one read to the next, so what a read gives could depend on any sequence of reads before it; names have any length.", "anchors": ["IsoLib/libisomediafile/src/FileMappingDataHandler.c: createCanonicalPathName 36-82", "IsoLib/libisomediafile/src/FileMappingDataHandler.c: copyData 130-160", "IsoLib/libisomediafile/src/MP4DataHandler.c: MP4CreateDataHandler 32-39", "IsoLib/libisomediafile/src/MediaInformationAtom.c: openDataHandler 183-232", "IsoLib/libisomediafile/src/MediaInformationAtom.c: closeDataHandler 132-181", "IsoLib/libisomediafile/src/MetaAtom.c: openDataHandler 98-135"]}
{"id": "C87", "title": "Input streams", "statement": "A stream over a file or over a block of memory is a place in its bytes. Whatever calls are made, in any order: read8, read16 and read32 give the number written in the next 1, 2 or 4 bytes, most significant first; readData gives the next bytes; each moves the place behind what it read; skipData and rewindData move it; what does not fit in the bytes left fails with an error and moves nothing, and so does going back before the start; getStreamOffset is the place and available the number of bytes left. Hence every reading function gives on a stream the result, error and count of bytes that it gives on the list of the bytes.", "quantifier": "all contents, all lists of calls with all amounts, all reading functions (whatever they ask for depending on what they have read)", "why_tests_cant": "The counters available and offset must stay in step over any number of calls, including failed ones.", "anchors": ["IsoLib/libisomediafile/src/MP4FileMappingInputStream.c: read8 to getStreamOffset 63-229", "IsoLib/libisomediafile/src/MP4MemoryInputStream.c: read8 to getStreamOffset 72-226", "IsoLib/libisomediafile/src/MP4InputStream.h: 33-71", "IsoLib/libisomediafile/src/MP4Impl.h: GET macros 70-209"]}
{"id": "C88", "title": "Reading a file through a window", "statement": "On macOS a file is mapped 32 MiB at a time, at multiples of 16 MiB, and the window moves when a read begins elsewhere. Whatever was read before, a read at an offset gives the bytes of the file at that offset, also when it crosses any number of windows, and fails when the file has not as many bytes there; so a stream over such a mapping is a place in the bytes of the file.", "quantifier": "all files that are not empty, all lists of reads at all offsets and with all lengths", "why_tests_cant": "The window is state: what a read gives could depend on any reads before, and crossing windows needs files larger than tests use.", "anchors": ["IsoLib/libisomediafile/macosx/SimpleFileMappingObject.c: doOpen 61-115", "IsoLib/libisomediafile/macosx/SimpleFileMappingObject.c: copyData 163-219", "IsoLib/libisomediafile/src/MP4FileMappingInputStream.c: readData 184-223"]}
{"id": "C89", "title": "Tools of IPMP extensions", "statement": "Tools, lists of tools, IPMP data, what a tool is started with, tool descriptors and the command that updates them are written in the layout of ISO/IEC 14496-13 and read back unchanged from their bytes, wherever these stand. The functions on handles, which parse the handle, add one thing and write it back, build what the list of calls says: each thing added, in the order of the calls, with what was there before unchanged.", "quantifier": "all tools, lists, data, descriptors and commands whose numbers fit their fields, all lists of calls", "why_tests_cant": "A handle goes through a parser and a serializer once per call, and each descriptor has optional parts and three levels of lists of any length; what a call loses may be noticed only by a reader of the file.", "anchors": ["IsoLib/libisomediafile/src/MP4IPMPX.c: MP4NewIPMPTool 30-101", "IsoLib/libisomediafile/src/MP4IPMPX.c: MP4AddUrlToIPMPTool 103-149", "IsoLib/libisomediafile/src/MP4IPMPX.c: MP4AddToolToIPMPToolList 177-227", "IsoLib/libisomediafile/src/MP4IPMPX.c: MP4NewIPMPToolDescriptor 268-319", "IsoLib/libisomediafile/src/MP4IPMPX.c: MP4AddIPMPDataToIPMPInitialize 348-397", "IsoLib/libisomediafile/src/MP4IPMPX.c: MP4AddIPMPToolDescriptorToUpdate 472-521", "IsoLib/libisomediafile/src/MP4IPMPTool.c: serialize 72-134", "IsoLib/libisomediafile/src/MP4IPMPToolDescriptor.c: createFromInputStream 134-184", "IsoLib/libisomediafile/src/MP4IPMPToolDescriptor.c: destroy 186-219"]}
{"id": "C90", "title": "Sample descriptions built and edited in handles", "statement": "A new sample description holds the entry that the kind of the track calls for, with the fields, boxes and decoder configuration that were given. A function that edits one parses the handle, changes the one thing that it is for (type, priority, a descriptor, dimensions, a box, bit rates) and writes the rest of the entry, of whichever class, as it was. What the library does not see in entries of unknown types stays as it is.", "quantifier": "all entries of all classes with any boxes, all parameters that fit their fields", "why_tests_cant": "Each edit is a parse and a serialization of an entry of one of ten classes with any boxes in it, so that each pair of edit and class has its own ways to lose bytes; blocks that are read after they were freed mostly still hold what they held.", "anchors": ["IsoLib/libisomediafile/src/ISOSampleDescriptions.c: MP4NewSampleDescriptionWithOCRAssociation 141-272", "IsoLib/libisomediafile/src/ISOSampleDescriptions.c: MP4SetSampleDescriptionPriority 275-305", "IsoLib/libisomediafile/src/ISOSampleDescriptions.c: MP4AddDescToSampleDescription 308-357", "IsoLib/libisomediafile/src/ISOSampleDescriptions.c: ISOSetSampleDescriptionDimensions 359-377", "IsoLib/libisomediafile/src/ISOSampleDescriptions.c: ISOSetSampleDescriptionType 379-411", "IsoLib/libisomediafile/src/ISOSampleDescriptions.c: ISOAddAtomToSampleDescription 518-538", "IsoLib/libisomediafile/src/ISOSampleDescriptions.c: ISOAddBitrateToSampleDescription 557-584"]}
{"id": "C91", "title": "Sample descriptions of a media and their decoder configuration", "statement": "The sample descriptions given with samples are those of the media, in the order given; each is returned by its number byte for byte with its data reference, before and after the file is written, and its elementary stream descriptor, its decoder configuration and the decoder specific information without its header are those that were given. Numbers outside are refused.", "quantifier": "all sequences of descriptions of the kinds of C90, all numbers, all decoder configurations, handles with any contents", "why_tests_cant": "Any number of descriptions of ten kinds with any boxes, any length of decoder specific information, and any former contents of the handle.", "anchors": ["IsoLib/libisomediafile/src/MP4Media.c:719-1049", "IsoLib/libisomediafile/src/MP4Media.c:1464-1528", "IsoLib/libisomediafile/src/MediaInformationAtom.c:472-530", "IsoLib/libisomediafile/src/SampleTableAtom.c:163-236"]}
{"id": "C92", "title": "Media time at a track time, and the edits of a track by number", "statement": "MP4TrackTimeToMediaTime returns, for a track without edits, the whole seconds of the track time in the time scale of the media (less than a second too early, exact just for whole seconds); for a track with edits, the media time of the segment that holds the track time plus the whole seconds since the segment began, if it is the last segment or those after it are short. After the last segment it returns -1. MP4GetTrackEditlist returns the duration and media time (-1 for an empty edit) of any edit by its number from 1, and refuses all other numbers. Violations: if the segment is followed by one that is not shorter the media time comes from the wrong segment, and in an empty edit the code reads after the end of an entry.", "quantifier": "for all edit lists, time scales and track times (sums within 64 bits)", "why_tests_cant": "which segment is used depends on all durations in the list, of any length; tests use one or two segments", "anchors": ["IsoLib/libisomediafile/src/EditListAtom.c:320-387", "IsoLib/libisomediafile/src/MovieTracks.c:986-1052", "IsoLib/libisomediafile/src/MovieTracks.c:1151-1213"]}
{"id": "C93", "title": "All ways to ask for a sample agree, in any order", "statement": "After any history of additions and reads, any sequence of queries for samples that exist - MP4SampleNumToMediaTime, MP4GetIndMediaSampleReference, MP4GetIndMediaSample, MP4GetMediaSample - succeeds, and each answer is the one supplied, whatever was asked before: decoding and composition time, duration, size, sync flag, and an offset at which the bytes of the sample are in the media data. If no duration is zero, the decoding time of a sample leads back to the sample. Limits: media data below 4 GB, media time below 2^32; after the last sample MP4SampleNumToMediaTime succeeds with the time 2^64 - 1.", "quantifier": "for all histories of additions, all composition offsets and sync samples, and all sequences of queries", "why_tests_cant": "each lookup leaves caches that the next one starts from, so an answer depends on all queries before it; tests ask in one order", "anchors": ["IsoLib/libisomediafile/src/MP4Media.c:1890-2012", "IsoLib/libisomediafile/src/MP4Media.c:2103-2164", "IsoLib/libisomediafile/src/MP4Media.c:1541-1713", "IsoLib/libisomediafile/src/MP4Media.c:1725-1887", "IsoLib/libisomediafile/src/TimeToSampleAtom.c:170-236", "IsoLib/libisomediafile/src/SampleToChunkAtom.c:185-262"]}
{"id": "C94", "title": "Decoder configurations in whole sample entries", "statement": "A sample entry of H.264, H.265 or H.266 video, read from a handle with any list of further boxes, answers from its first configuration box: its data reference index, the counts of parameter sets, every parameter set byte by byte for every index (an error outside), and the length of the NAL unit sizes. Entries of another type or without the box are refused. Parameter sets added one after the other are read back in the order of addition, with the other boxes and all fields unchanged. New descriptions hold the configuration built from the sequence parameter set and the given data reference index, and are read back by the same functions; those of H.265, H.266 and sub-pictures hold the size, which the track gets too, those of H.264 the default size.", "quantifier": "for all entries and lists of boxes in them, all configurations whose fields fit, all kinds and indices, and all sequences of additions", "why_tests_cant": "the answer depends on the order of boxes, on the kinds and counts of parameter sets and on a whole parse and write of the entry at each step; tests use a few files", "anchors": ["IsoLib/libisomediafile/src/ISOSampleDescriptions.c:988-1392", "IsoLib/libisomediafile/src/ISOSampleDescriptions.c:1470-1672", "IsoLib/libisomediafile/src/ISOSampleDescriptions.c:1872-2213", "IsoLib/libisomediafile/src/ISOSampleDescriptions.c:2217-2325"]}
{"id": "C95", "title": "Sample groups of all types of a track, through calls and merged fragments", "statement": "After any sequence of calls that add samples, add group descriptions of any grouping types and map samples to descriptions (normal or compact mappings, refused calls included), in a movie or in a fragment, the boxes hold for every type exactly the descriptions and the number of every sample that the calls say, and the getters answer from them; in a movie no sample has the number of a description that is not there. Merging a fragment whose mappings are not longer than its runs and whose numbers have descriptions gives each of its samples, for every type, the description it had in the fragment (its own or the movie's), leaves the descriptions of all earlier samples and the numbers of all earlier descriptions alone, and adds each new description once; so does any sequence of fragments.", "quantifier": "all grouping types, all sequences of calls (in the movie and in fragments), all sequences of fragments with any runs, descriptions and mappings, all contents of new memory, fewer than 2^28 samples", "why_tests_cant": "Several types share the lists of boxes, and local numbers are translated through the contents of descriptions; errors show only for particular interleavings of types, fragments and duplicate descriptions.", "anchors": ["IsoLib/libisomediafile/src/SampleTableAtom.c:56-85", "IsoLib/libisomediafile/src/SampleTableAtom.c:408-420", "IsoLib/libisomediafile/src/SampleTableAtom.c:527-708", "IsoLib/libisomediafile/src/TrackFragmentAtom.c:111-133", "IsoLib/libisomediafile/src/TrackFragmentAtom.c:316-352", "IsoLib/libisomediafile/src/TrackFragmentAtom.c:604-671", "IsoLib/libisomediafile/src/TrackFragmentAtom.c:850-914", "IsoLib/libisomediafile/src/MovieFragmentAtom.c:141-152", "IsoLib/libisomediafile/src/MediaAtom.c:317-435"]}
{"id": "C96", "title": "Attributes of a media are those set last, also after writing and reading", "statement": "For a media of any handler and any sequence of calls that set its language, extended language, graphics mode and sound balance: each call succeeds exactly if it is for that kind of media and otherwise returns not-implemented and changes nothing; every getter returns the value set last, or the initial one; and after writing the boxes and reading them the getters return the same. The code keeps the first extended language instead of the last, writes files that it refuses to read if there were two, and cuts a graphics mode to 16 bits; for all other histories the claim is proved.", "quantifier": "all handler types, all finite sequences of calls with values of the C types, packable language letters, all NUL-free strings, every time scale and time", "why_tests_cant": "Which value is returned depends on the whole history of calls of four setters sharing boxes; tests set each attribute once.", "anchors": ["IsoLib/libisomediafile/src/MP4Media.c:386-619", "IsoLib/libisomediafile/src/MediaAtom.c:89-170", "IsoLib/libisomediafile/src/MediaAtom.c:487-515", "IsoLib/libisomediafile/src/MediaInformationAtom.c:67-96", "IsoLib/libisomediafile/src/MediaInformationAtom.c:280-330"]}
{"id": "C97", "title": "Sub-sample information of a track through the calls, writing and reading", "statement": "After any sequence of calls that make sets of sub-sample information in a track, set the flags of any of them and add entries with or without codec specific parameters to any of them, every box holds exactly the flags and entries of the calls for its set, and its version is 1 exactly if a size needs 32 bits; a new set gets a name of its own; the getter answers not-found if there is no set and otherwise the flags, sample deltas, counts, sizes, priorities and discardable marks of all entries of the first set; if all values fit their fields and each entry has a sub-sample, writing and reading the boxes gives all sets back and the same answer.", "quantifier": "all finite sequences of calls naming sets that were made, all entries and arrays of any length (longer than the count too), all flags", "why_tests_cant": "Entries of several sets are added in any order and the version depends on all sizes ever added; tests add a few small entries to one set.", "anchors": ["IsoLib/libisomediafile/src/MovieTracks.c:144-351", "IsoLib/libisomediafile/src/SubSampleInformationAtom.c:59-304", "IsoLib/libisomediafile/src/SampleTableAtom.c:93-98"]}
{"id": "C98", "title": "The kinds of sample auxiliary information of a media can be listed", "statement": "For a media with any history of correct calls, MP4GetSampleAuxiliaryInformation returns the number of kinds of auxiliary information that were set up and fills the three handles with their flags, types and parameters in order. The code violates this whenever there is a kind: it stores the values over the records of the handles, so that the address of each block becomes the value of the first kind, and with more than 8 kinds it writes behind the record. Only the count is right.", "quantifier": "all histories of correct calls (samples, kinds, information), all handles and addresses of new blocks", "why_tests_cant": "No test of the project calls this function; which memory is damaged depends on the number of kinds and on their types.", "anchors": ["IsoLib/libisomediafile/src/MP4Media.c:2337-2394", "IsoLib/libisomediafile/src/MP4Handle.c:26-128"]}
{"id": "C99", "title": "The defaults that fragments of a track are written with are those they are read with", "statement": "For any calls of ISOSetTrackFragmentDefaults for the tracks of a movie, after ISOStartMovieFragment the track extends box that a reader finds for a track has the values the fragment of the track was set up with: the duration, size, padding and sync flag of the call and the current sample description of the track; the fragment begins at the duration of the media. So samples put into the fragment are read unchanged. The code violates this if there are two calls for a track: the reader finds the first box, the writer uses the last, and sample durations change. It holds with one call for each track; calls in a fragment are type confusion.", "quantifier": "all lists of tracks with different numbers, all lists of calls, all values of the parameters, all runs of samples that fit", "why_tests_cant": "Tests give defaults once for each of one or two tracks and mostly with samples whose values are all stored; whether the reader's defaults are the writer's shows only for values that were left out.", "anchors": ["IsoLib/libisomediafile/src/MovieTracks.c:1054-1109", "IsoLib/libisomediafile/src/MovieExtendsAtom.c:87-265", "IsoLib/libisomediafile/src/MovieExtendsAtom.c:294-318", "IsoLib/libisomediafile/src/MP4MovieFile.c:341-422", "IsoLib/libisomediafile/src/MovieFragmentAtom.c:85-135"]}
