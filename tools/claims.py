c('C02', 'proved', ['C02_chunking_covers'])
c('C03', 'proved', ['C03_chunking_rejected'])
c('C04', 'proved', ['C04_header_roundtrip'])
c('C05', 'proved', ['C05_header_strict', 'C05_header_injective'])
c('C06', 'proved', ['C06_meta_header_roundtrip', 'C06_meta_header_roundtrip_exact', 'C06_strip_decomposition'])
c('C07', 'proved', ['C07_encode_uint8', 'C07_encode_uint32', 'C07_encode_int32', 'C07_encode_int64', 'C07_decode_uint8',
                    'C07_decode_uint32', 'C07_decode_int32', 'C07_decode_int64', 'C07_decode_total'])
c('C32', 'proved', ['C32_exact', 'C32_ignored', 'C32_rejected', 'C32_header'])
c('C33', 'proved', ['C33_check_args'])
c('C47', 'proved', ['C47_digest_sizes', 'C47_adler32','C47_crc32'])
c('C50', 'proved', ['C50_blosc_header', 'C50_blosc_header_total', 'C50_blosc_flags'])
c('C01', 'proved', ['C01_roundtrip', 'C01_total', 'C01_defaults'])
c('C12', 'proved', ['C12_offsets_exact'])
c('C37', 'proved', ['C37_size'])
c('C46', 'partial', ['C46_pack_agree', 'C46_unpack_files', 'C46_unpack_agree_partial', 'C46_unpack_memory', 'C46_unpack_violated'], 'The code violates the property for forged metadata sizes: C46_unpack_violated gives a family of inputs accepted in memory and rejected as files. Everything else agrees (C46_unpack_agree_partial), and what a file unpacks to is always also what its bytes unpack to in memory (C46_unpack_memory).')
c('C08', 'proved', ['C08_section_roundtrip'])
c('C09', 'proved', ['C09_stored', 'C09_too_small', 'C09_failure_writes_nothing'])
c('C48', 'partial', ['C48_level_partial', 'C48_violated'], 'The code violates the property: C48_violated derives it for all inputs where compression does not pay.')
c('C21', 'proved', ['C21_single_byte'])
c('C22', 'proved', ['C22_only_verified', 'C22_collision', 'C81_memory'])
c('C23', 'partial', ['C23_truncation_partial', 'C23_truncation_without_checksum', 'C23_violated', 'C23_exact'], 'The code violates the property at exactly one cut position per file with a checksum: C23_violated proves acceptance there for all packed files, C23_truncation_partial proves detection everywhere else, C23_truncation_without_checksum the full property for checksum None.')
c('C24', 'proved', ['C24_truncated_output', 'C24_corrupted_output'])
c('C45', 'proved', ['C45_version', 'C45_packed_version', 'C45_not_bloscpack'])
c('C25', 'proved', ['C25_offsets_minus_one'])
c('C26', 'proved', ['C26_interrupted_pack', 'C26_writes'])
c('C13', 'proved', ['C13_append', 'C13_total', 'packed_appendable'])
c('C16', 'proved', ['C16_failed_append_untouched', 'C16_small'], 'Files that would reach 2^63 bytes are excluded: their offsets do not fit the 8-byte fields, and the error comes after the writes. Files whose metadata section holds null are excluded, see C51.')
c('C19', 'proved', ['C19_append_needs_offsets'])
c('C20', 'partial', ['C20_violated', 'C20_append_nothing_partial', 'C20_append_nothing_succeeds_partial'], 'The code violates the property: C20_violated derives the ValueError for every file packed from empty input and every non-empty append.')
c('C43', 'partial', ['C43_violated', 'C43_undecodable_partial'], 'The code violates the property: C43_violated shows that any wrong digest of the last chunk goes unnoticed and the result unpacks without complaint.')
c('C44', 'partial', ['C44_violated', 'C44_preserved_partial'], 'The code violates the property: ZeroDivisionError for every conforming file; C44_preserved_partial shows that the contents survive.')
c('C10', 'proved', ['C10_rewrite', 'C10_total'])
c('C11', 'proved', ['C11_failed_rewrite_untouched', 'C11_reasons'])
c('C14', 'proved', ['C14_history'], 'Rewrites of the metadata to None are not among the operations: appending afterwards destroys the metadata section, see C51. Files of 2^63 bytes or more are excluded.')
c('C15', 'proved', ['C15_not_enough_space', 'C15_bookkeeping'])
c('C17', 'proved', ['C17_same_chunking'])
c('C18', 'proved', ['C18_offsets_exact'])
c('C27', 'proved', ['C27_interrupted_append', 'C27_writes'])
c('C51', 'partial', ['C51_violated', 'C51_small_append_partial'], 'The code violates the property: C51_violated shows that every append that adds a chunk makes the file unreadable.')
c('C52', 'partial', ['C52_violated', 'C52_offsets', 'C52_known_partial'], 'The code violates the property: C52_violated derives the empty output for every such header and content.')
c('C31','proved',['C31_memory_roundtrip','C31_memory_as_file','C31_sources_agree','C31_plain_sinks_agree'], 'memory sink/source round trip for every list of chunks; memory sink against file sink; list source against file source for every sink; plain sinks agree for every source and state, including failures')
c('C38','proved',['C38_exact','C38_integer','C38_str','C38_decimal','C38_nearest','C38_rejected','C38_empty','C38_not_finite','C38_no_digit'],'Digits and whitespace outside ASCII are not modelled.')
c('C39','partial',['C39_filter','C39_every_message','C39_levels','C39_unknown_level','C39_unknown_current','C39_error','C39_set_level_violated','C39_set_level_partial'], 'The filtering, prefixing and exit code part is proved. The code violates the set_level part: C39_set_level_violated shows that set_level never changes the level.')
c('C34','proved',['C34_compress','C34_decompress','C34_refused','C34_inverse'])
c('C35','proved',['C35_no_overwrite'])
c('C36','proved',['C36_roundtrip','C36_total'])
c('C49','partial',['C49_violated','C49_exit_partial'], 'The code violates the property: C49_violated derives AttributeError for every such file. C49_exit_partial shows what does hold.')
c('C53','proved',['C53_info_readonly','C53_info_rejects','C53_info_packed'])
c('C54','proved',['C54_refused','C54_only_original','C54_append'], 'Original and new file are different names; the same name for both is not modelled. Sizes below 2^62.')
c('C55','partial',['C55_violated','C55_with_metadata_partial','C55_outcomes'], 'The code violates the property: C55_violated shows it for every O packed without metadata.')
c('C42','proved',['C42_exact','C42_roundtrip','C42_ascii'],'CPython json.dumps/json.loads modelled on code points: reading back what was written gives the object with surrogate pairs joined, hence the object itself iff no string of it contains a high surrogate directly followed by a low one; the text is ASCII. Floats are read correctly rounded and written with the fewest digits that read back as the same float; all NaNs are one here.')
c('C28','partial',['C28_roundtrip_partial','C28_violated','C28_exact','C28_gaps_partial','C28_gaps_fields_partial','C28_unreadable'],'numpy arrays modelled as strided views of memory. The code violates the property for record types with gaps: C28_violated shows no bytes at all are unpacked to such a type. C28_roundtrip_partial: any layout, any type without gaps. C28_gaps_partial, C28_gaps_fields_partial: with gaps, the shape and the bytes of all elements come back, and all fields with their names, titles, places and shapes, and each gap becomes an additional field f0, f1, ... C28_unreadable: if a field has such a name already, the packed array cannot be unpacked.')
c('C29','proved',['C29_objects_rejected','C29_objects_only','C29_accepted_iff','C29_exceptions','C29_order'],'C29_objects_only assumes that blosc, zlib and the serializer do not raise ObjectNumpyArrayRejection themselves. Settings other than the chunk size and typesize are assumed valid in C29_accepted_iff.')
c('C30','proved',['C30_pairs_tile','C30_unpack_fills'])
c('C56','partial',['C56_violated','C56_append_violated','C56_written_partial'],'The code violates the property: C56_violated shows it for every packed data whose length differs from the announced size.')
c('C40','partial',['C40_pack_violated','C40_pack_history','C40_pack_partial','C40_ndarray_violated','C40_append_violated','C40_append_partial','C40_append_exact_partial','C40_append_refused'],'The code violates the property in three places, each proved with its exact condition and, for packing and appending, its effect on later calls.')
c('C41','proved',['C41_conv','C41_old_files'],'Titles of fields are lost by the conversion (C41_title_lost); the theorems ask for descriptions without titles.')
c('C57','proved',['C57_crc32','C57_adler32'],'The damaged chunk keeps its length field (bytes 12-15 of its blosc header); C57_adler32_limit shows adler32 misses a change of three bytes.')
c('C58','proved',['C58_outside','C58_between','C58_torn'],'Crash model: the writes reach the file in program order, the last one possibly in part. C58_writes shows the recorded writes are complete. Which metadata is returned is not claimed.')
c('C59','partial',['C59_violated','C59_rejected_partial','C59_arrays_pass'],'The code violates the property: C59_violated gives the exception for every metadata without a container entry.')
c('C60','partial',['C60_violated','C60_ndarray_violated','C60_refused_partial'],'The code violates the property: C60_violated and C60_ndarray_violated show it for every existing file and every such refusal.')
c('C61','proved',['C61_pack','C61_roundtrip'])
c('C62','proved',['C62_text','C62_back','C62_exact','C62_other','C62_double'],'Sizes below 2^53; C62_other: 0 is written 0B and read back, a negative size gives None.')
c('C63','proved',['C63_keys','C63_kept','C63_last','C63_copy','C63_refused','C63_update','C63_eq','C63_copy_eq','C63_items','C63_blosc_args'],'collections.abc.MutableMapping is modelled as documented.')
c('C64','proved',['C64_info','C64_info_packed','C64_header_told','C64_metadata_header_told','C64_chunk_header_told'],'The text pprint gives for metadata is a parameter. Hypothesis: the first chunk names one of the five codecs blosc documents (else KeyError).')
c('C65','partial',['C65_violated','C65_cli_violated','C65_refused_partial'],'The code violates the property: C65_violated shows it for every input that cannot be unpacked and every existing file.')
c('C66','partial',['C66_unpack_violated','C66_pack_violated','C66_input_kept_partial'],'The code violates the property, for every file. Simplification for packing: the reads do not see what is being written to the same file meanwhile.')
c('C67','proved',['C67_holds_what_was_read','C67_input_changed'])
c('C68','proved',['C68_verbosity','C68_quiet'],'The texts of the verbose and debug messages are arbitrary; formatting them never raises in the model.')
c('C69','partial',['C69_size','C69_accepted','C69_meaning','C69_refused_partial','C69_violated'],'The code violates the property: C69_violated gives the values that end with a traceback instead of an error message.')
c('C70','proved',['C70_order'])
c('C71','proved',['C71_compress'])
c('C72','proved',['C72_int','C72_accepted','C72_refused','C72_usage'],'How argparse splits the words of the command line into options, values and file names is not modelled.')
c('C73','proved',['C73_only_output','info_writes_nothing'])
c('C74','proved',['C74_session','C74_decompress'],'No command appends a file to itself, and appended files are small enough for offsets below 2^63.')
c('C75','partial',['C75_uniform_partial','C75_violated','C75_blpk_violated'],'The code violates the property, for every packed file. For files with offsets. Assumes that blosc records the typesize it was given in byte 3 of its header.')
c('C76','proved',['C76_settings','C76_defaults'])
c('C77','proved',['C77_appends_what_was_read','C77_announced_size'],'What the reads deliver is a parameter (an arbitrary list of pieces), so appending a file to itself is covered; that read and write positions of the two file objects do not interfere otherwise is the operating system\'s.')
c('C78','proved',['C78_last_chunk_only','C78_untouched_bytes'],'Crash model: the writes reach the file in program order, the last one possibly in part. For C78_last_chunk_only the write of the 32 byte header is all or nothing: a header cut in the middle of its chunk count can hold any number of chunks.')
c('C79','proved',['C79_accepted','C79_meaning','C79_refused','C79_reserved_options'],'The reserved option bits of the header are not looked at by the code when a header is read; C79_reserved_options is about the function that reads them.')
c('C80','partial',['C80_violated','C80_too_many_partial','C80_file_too_many_partial','C80_too_few','C80_file_too_few','C80_slots'],'The code violates the property for files without offsets: C80_violated shows it for every list longer than announced. The other theorems: too many chunks into memory or a file with offsets fail; too few, into memory or any file, cannot be unpacked; sinks with slots.')
c('C81','proved',['C81_memory','C81_file','C81_files'],'The specification of what an archive is (Spec/Archive.lean) follows the format description plus what the reader tolerates: a last chunk without digest, metadata cut short, an offsets section cut short behind the chunks it announces, and forged sizes that lead the reader backwards.')
c('C82','partial',['C82_packed','C82_accepted','C82_violated'],'The code violates the property: C82_violated shows it for every packed file with checksums. C82_accepted has hypotheses on metadata (body complete); C82_packed covers everything packing writes.')
c('C83','proved',['C83_accepted','C83_forged'])
c('C84','proved',['C84_unpack_memory','C84_unpack_file','C84_no_header','C84_append','C84_rewrite'],'MemoryError, KeyboardInterrupt, I/O errors of the operating system and recursion limits are not modelled.')
c('C85','partial',['C85_appends_partial','C85_history_partial','C85_failed_untouched_partial','C85_unknown_chunk_size','C85_unknown_last_chunk_violated','C85_long_last_chunk_violated','C85_failed_violated','C85_wrong_offset_violated'],'The code violates the property in four ways, each proved for every such file. The positive part: right offsets, chunk size not below the last chunk, last chunk size not above the true one.')
c('C86','partial',['C86_alone','C86_last_chunk_only_partial','C86_new_header_partial','C86_violated'],'The code violates the property: C86_violated shows it for every append that needs more chunks and finds a last chunk that is not full. Missing from the positive part: a reader that saw the old header may get a part of the new data. Model of the reader: the 32 bytes of the header are fetched at one moment between two writes, every other byte at any later moment, also in the middle of a write.')
c('C87','partial',['C87_violated','C87_last_chunk_only_partial','C87_one_after_the_other_partial','C87_same_writes'],'The code violates the property: C87_violated shows for every two appends that one of them can be lost although both succeed. Both processes read what they need before either writes; single writes are not interleaved.')
c('C88','proved',['C88_append_and_rewrite'],'Both processes read what they need before either writes; single writes are not interleaved.')
c('C89','proved',['C89_data'],'The 32 bytes of the metadata header are fetched at one moment between two writes, every other byte at any moment. Which metadata come out is not claimed.')
c('C90','partial',['C90_violated','C90_packs_partial'],'The code violates the property: C90_violated shows it for every input that can be packed at all. MemoryError, which ends packing for far smaller numbers on real machines, is not modelled.')
c('C91','proved',['C91_only_verified','C91_guard'],'Stated as independence: any other blosc, zlib and json that treat the verified bytes alike give the same result. A chunk at the very end of the file is decompressed without a digest (see C23).')
c('C92','proved',['C92_pack','C92_pack_size','C92_append','C92_append_size'],'Stated as independence: any other way to compress that treats these pieces alike gives the same result.')
c('C93','proved',['C93_memory','C93_file','C93_refused','C93_left_behind'],'The data may be longer or shorter than the array that the metadata describe; the code does not compare them (see C56). Dtype descriptions are handed to an arbitrary model of numpy.dtype; descriptions other than strings and lists of tuples (None, dicts) and shapes of booleans or null are not modelled.')
c('C94','proved',['C94_append','C94_rewrite','C94_new_content'],'append and rewriting metadata are applied to the file object itself, at its beginning.')
c('C95','partial',['C95_violated','C95_rewound_partial','C95_twice_partial'],'The code violates the property: C95_violated shows it for every append that does not use up the room for new chunks. (Otherwise the second call takes the first chunk for a header; what happens then depends on the bytes blosc makes.)')
c('C96','proved',['C96_stored','C96_read','C96_one_meaning'],'The grammar (Spec/Literal.lean) covers strings, decimal integers, tuples and lists; not octal and named escapes, prefixes and triple quotes, adjacent strings, underscores, other bases, comments, and other types. A text with these is taken for one that is no literal. Leading blanks are allowed as in Python 3.10 and later; the limits of Python on nesting depth and digits are not modelled.')
c('C97','proved',['C97_all_at_once','C97_split'],'The settings for metadata are given for histories whose rewrites name codec and level, as the defaults do; a rewrite without codec goes on with the codec that was used last, which is None if compression did not help. Histories do not write the metadata null (C51).')
c('C98','proved',['C98_read','C98_refused','C98_one_meaning','C98_written','C98_section','C98_foreign','C98_whole'],'Of the model of the json module and of float() and repr() of floats, which are correctly rounded; not modelled: the limit on the number of digits of integers in newer Python. What is written for strings with a high surrogate directly before a low one spells another string (C42).')
c('C99','proved',['C99_refused','C99_accepted','C99_file','C99_array'],'For inputs below 2^50 bytes and less than 2^59 append chunks asked for; beyond that the table of offsets can be too large (C90).')
c('C100','proved',['C100_append','C100_append_file','C100_rewrite','C100_accepted'],'Archives of up to about 2^62 bytes, so that offsets fit; files whose metadata section holds null are excluded for append, see C51.')
c('C101','proved',['C101_memory','C101_file','C101_files','C101_either'],'Complements C81, which says what is unpacked. Of a header that is not one, only these two exceptions are told apart.')
c('C102','proved',['C102_pack','C102_pack_works','C102_pack_safe','C102_append','C102_append_safe','C102_append_input','C102_append_input_safe','C102_append_input_works','C102_rewrite','C102_rewrite_safe','C102_unpack','C102_unpack_safe'],'Bytes arrive on the disk in the order in which they were written. Of the files whose content is packed or appended, reading may fail, closing not.')
c('C103','partial',['C103_repeated_partial','C103_failed_partial','C103_stuck','C103_doubled_violated'],'Violated by the code, as described; the partial theorems say exactly what a repeated append leaves behind. The file stays smaller than 2^63 bytes. Interruptions in the middle of a write are not covered.')
c('C104','partial',['C104_repeated_partial','C104_torn_partial','C104_stuck_violated'],'Violated by the code, as described. Interruptions in the middle of a write are covered by C104_torn_partial, if what follows the metadata section is at least as long as the space reserved for metadata (the hypothesis of C58_torn). That a failing rewrite does not touch the archive is C11_failed_rewrite_untouched.')
c('C105','partial',['C105_interrupted_partial','C105_lost_violated','C105_mixture_violated'],'Violated by the code, as described; the positive part covers every crash point, including the middle of a write.')
c('C106','partial',['C106_read_while_packing_partial','C106_read_any_time_partial','C106_read_dict_partial'],'Proved for readers that do not start before the header, the metadata and the space for the offsets have been written, and that do not catch a chunk without its digest, unless this digest is not the beginning of something that blosc decompresses. (A chunk whose digest is missing is accepted, since an empty digest counts as no digest; once the digest arrives, the reader takes it for the next chunk.) For readers that start earlier, it is also assumed that no compressed chunk begins with the byte 255, with which the space for the offsets is filled, and that metadata cannot be loaded unless they are complete, which is proved for dicts in JSON (C98_whole). What is missing: the code checks none of this; only the structure of compressed chunks, digests and metadata stands between the reader and wrong data.')
c('C107','proved',['C107_interrupted','C107_writes','C107_pack','C107_unpack','C107_unpack_safe'],'For dtypes without gaps that numpy knows; for the others no array that is read back is the one that was packed, interrupted or not (C28_violated).')
c('C108','partial',['C108_read_while_packing_partial'],'For dtypes without gaps that numpy knows, under the assumptions of C106 about blosc and zlib (nothing in the code checks that what is read is complete); the metadata of an array need no assumption, because no proper beginning of a dict can be loaded (C98_whole). Missing: readers for which the digest of a chunk is not there in the call of read after the one that found the chunk, and could be taken for a chunk.')
c('C109','proved',['C109_same','C109_arrays'],'Processes that pack different data may leave an archive that holds chunks of both and is read without an exception (example in Props/Race.lean).')
c('C110','proved',['C110_data','C110_append','C110_read'],'C110_append adds a process that appends meanwhile: then it is all of the data, old and new. The writes may be any list of writes that some rewrite of the archive makes, so also those of processes that are stopped between two writes. Which metadata come out is not claimed: a mixture that cannot be told from one of them by its digest may be read (example in Props/ManyRewrites.lean).')
c('C111','partial',['C111_alone','C111_kept_partial','C111_compress_violated','C111_decompress_violated','C111_two_violated','C111_input_gone'],'The code violates the property: it looks whether the output exists, and opens it for writing later. C111_compress_violated and C111_decompress_violated show it for every file that is created in between, C111_two_violated for every two compressions to the same new file. Other programs change files after the check and after the metadata have been read, not while pack_file_to_file or unpack_file_from_file run.')
c('C112','partial',['C112_bytes_partial','C112_one_after_the_other_partial','C112_mixture_violated'],'The code violates the property: C112_mixture_violated gives, for every two data whose chunks are compressed to the same sizes, an interleaving after which the archive holds the first k chunks of the one and the other chunks of the other one, and is read without an exception. The checksums are those of single chunks and do not notice it.')
c('C113','proved',['C113_pack','C113_unpack'],'For sources whose compress_func is the inherited one (blosc.compress). The source is asked for its chunks independently of the state of the sink.')
c('C114','proved',['C114_repr','C114_header','C114_metadata_header'],'Strings are printable ASCII without quotes and backslashes, which all names in headers are. The text is read by a reader for calls with literals (Spec/PyCall.lean) that accepts printable ASCII only.')
c('C115','proved',['C115_stored','C115_layout','C115_layout_bytes','C115_again'],'C115_layout is for any sink; C115_again is for types without gaps (see C28). The array is not changed while it is packed.')
c('C116','proved',['C116_changed','C116_copied','C116_unchanged'],'One call of blosc.compress_ptr, and the copy of an array, are taken to see one state of the memory (python-blosc holds the interpreter lock by default). Types without gaps (see C28).')
c('C117','partial',['C117_read','C117_behind_partial','C117_violated'],'CompressedFPSink.finalize seeks to a place counted from the beginning of the file, so packing with offsets (the default) behind other content writes its offsets over that content and leaves -1 in its own; C117_violated gives the exact bytes. Reading, and packing without offsets, are proved for all contents and lists of packings.')
c('C118','partial',['C118_reuse_partial','C118_memory','C118_violated'],'CompressedFPSink.write_metadata adds to meta_total, which is only set to 0 when the sink is made. C118_violated gives the exact bytes that packing with offsets to a sink that was given metadata leaves. Packing without offsets, or to a sink that was never given metadata, is proved for all histories, as is packing to a sink in memory.')
c('C119','partial',['C119_twice_partial','C119_again_partial','C119_rewound_partial','C119_violated'],'A PlainFPSource reads from where its file object is, and pack does not compare what it read with the size it announced. C119_violated: packing from a used source returns too and gives an archive that unpacks to nothing. Unpacking again is proved to raise an exception if less than 16 bytes follow the archive, and to give the data again if the file object is set back. C119_again_partial says exactly which bytes behind the archive a second unpacking takes for its chunks.')
c('C120','partial',['C120_file_partial','C120_memory_partial','C120_full_partial','C120_array','C120_violated','C120_retry_violated'],'PlainNumpySink.put moves its pointer and nothing sets it back. C120_array gives the exact memory after any history of unpackings; C120_violated and C120_retry_violated show the array and the memory behind it after a second unpacking. Files and sinks in memory are proved for all histories.')
