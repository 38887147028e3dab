{
 "claims": [
  {
   "property": "C01",
   "status": "proved",
   "theorems": [
    "Bloscpack.C01_roundtrip",
    "Bloscpack.C01_total",
    "Bloscpack.C01_defaults"
   ],
   "note": ""
  },
  {
   "property": "C02",
   "status": "proved",
   "theorems": [
    "Bloscpack.C02_chunking_covers"
   ],
   "note": ""
  },
  {
   "property": "C03",
   "status": "proved",
   "theorems": [
    "Bloscpack.C03_chunking_rejected"
   ],
   "note": ""
  },
  {
   "property": "C04",
   "status": "proved",
   "theorems": [
    "Bloscpack.C04_header_roundtrip"
   ],
   "note": ""
  },
  {
   "property": "C05",
   "status": "proved",
   "theorems": [
    "Bloscpack.C05_header_strict",
    "Bloscpack.C05_header_injective"
   ],
   "note": ""
  },
  {
   "property": "C06",
   "status": "proved",
   "theorems": [
    "Bloscpack.C06_meta_header_roundtrip",
    "Bloscpack.C06_meta_header_roundtrip_exact",
    "Bloscpack.C06_strip_decomposition"
   ],
   "note": ""
  },
  {
   "property": "C07",
   "status": "proved",
   "theorems": [
    "Bloscpack.C07_encode_uint8",
    "Bloscpack.C07_encode_uint32",
    "Bloscpack.C07_encode_int32",
    "Bloscpack.C07_encode_int64",
    "Bloscpack.C07_decode_uint8",
    "Bloscpack.C07_decode_uint32",
    "Bloscpack.C07_decode_int32",
    "Bloscpack.C07_decode_int64",
    "Bloscpack.C07_decode_total"
   ],
   "note": ""
  },
  {
   "property": "C08",
   "status": "proved",
   "theorems": [
    "Bloscpack.C08_section_roundtrip"
   ],
   "note": ""
  },
  {
   "property": "C09",
   "status": "proved",
   "theorems": [
    "Bloscpack.C09_stored",
    "Bloscpack.C09_too_small",
    "Bloscpack.C09_failure_writes_nothing"
   ],
   "note": ""
  },
  {
   "property": "C10",
   "status": "proved",
   "theorems": [
    "Bloscpack.C10_rewrite",
    "Bloscpack.C10_total"
   ],
   "note": ""
  },
  {
   "property": "C100",
   "status": "proved",
   "theorems": [
    "Bloscpack.C100_append",
    "Bloscpack.C100_append_file",
    "Bloscpack.C100_rewrite",
    "Bloscpack.C100_accepted"
   ],
   "note": "Archives of up to about 2^62 bytes, so that offsets fit; files whose metadata section holds null are excluded for append, see C51."
  },
  {
   "property": "C101",
   "status": "proved",
   "theorems": [
    "Bloscpack.C101_memory",
    "Bloscpack.C101_file",
    "Bloscpack.C101_files",
    "Bloscpack.C101_either"
   ],
   "note": "Complements C81, which says what is unpacked. Of a header that is not one, only these two exceptions are told apart."
  },
  {
   "property": "C102",
   "status": "proved",
   "theorems": [
    "Bloscpack.C102_pack",
    "Bloscpack.C102_pack_works",
    "Bloscpack.C102_pack_safe",
    "Bloscpack.C102_append",
    "Bloscpack.C102_append_safe",
    "Bloscpack.C102_append_input",
    "Bloscpack.C102_append_input_safe",
    "Bloscpack.C102_append_input_works",
    "Bloscpack.C102_rewrite",
    "Bloscpack.C102_rewrite_safe",
    "Bloscpack.C102_unpack",
    "Bloscpack.C102_unpack_safe"
   ],
   "note": "Bytes arrive on the disk in the order in which they were written. Of the files whose content is packed or appended, reading may fail, closing not."
  },
  {
   "property": "C103",
   "status": "partial",
   "theorems": [
    "Bloscpack.C103_repeated_partial",
    "Bloscpack.C103_failed_partial",
    "Bloscpack.C103_stuck",
    "Bloscpack.C103_doubled_violated"
   ],
   "note": "Violated by the code, as described; the partial theorems say exactly what a repeated append leaves behind. The file stays smaller than 2^63 bytes. Interruptions in the middle of a write are not covered."
  },
  {
   "property": "C104",
   "status": "partial",
   "theorems": [
    "Bloscpack.C104_repeated_partial",
    "Bloscpack.C104_torn_partial",
    "Bloscpack.C104_stuck_violated"
   ],
   "note": "Violated by the code, as described. Interruptions in the middle of a write are covered by C104_torn_partial, if what follows the metadata section is at least as long as the space reserved for metadata (the hypothesis of C58_torn). That a failing rewrite does not touch the archive is C11_failed_rewrite_untouched."
  },
  {
   "property": "C105",
   "status": "partial",
   "theorems": [
    "Bloscpack.C105_interrupted_partial",
    "Bloscpack.C105_lost_violated",
    "Bloscpack.C105_mixture_violated"
   ],
   "note": "Violated by the code, as described; the positive part covers every crash point, including the middle of a write."
  },
  {
   "property": "C106",
   "status": "partial",
   "theorems": [
    "Bloscpack.C106_read_while_packing_partial",
    "Bloscpack.C106_read_any_time_partial",
    "Bloscpack.C106_read_dict_partial"
   ],
   "note": "Proved for readers that do not start before the header, the metadata and the space for the offsets have been written, and that do not catch a chunk without its digest, unless this digest is not the beginning of something that blosc decompresses. (A chunk whose digest is missing is accepted, since an empty digest counts as no digest; once the digest arrives, the reader takes it for the next chunk.) For readers that start earlier, it is also assumed that no compressed chunk begins with the byte 255, with which the space for the offsets is filled, and that metadata cannot be loaded unless they are complete, which is proved for dicts in JSON (C98_whole). What is missing: the code checks none of this; only the structure of compressed chunks, digests and metadata stands between the reader and wrong data."
  },
  {
   "property": "C107",
   "status": "proved",
   "theorems": [
    "Bloscpack.C107_interrupted",
    "Bloscpack.C107_writes",
    "Bloscpack.C107_pack",
    "Bloscpack.C107_unpack",
    "Bloscpack.C107_unpack_safe"
   ],
   "note": "For dtypes without gaps that numpy knows; for the others no array that is read back is the one that was packed, interrupted or not (C28_violated)."
  },
  {
   "property": "C108",
   "status": "partial",
   "theorems": [
    "Bloscpack.C108_read_while_packing_partial"
   ],
   "note": "For dtypes without gaps that numpy knows, under the assumptions of C106 about blosc and zlib (nothing in the code checks that what is read is complete); the metadata of an array need no assumption, because no proper beginning of a dict can be loaded (C98_whole). Missing: readers for which the digest of a chunk is not there in the call of read after the one that found the chunk, and could be taken for a chunk."
  },
  {
   "property": "C109",
   "status": "proved",
   "theorems": [
    "Bloscpack.C109_same",
    "Bloscpack.C109_arrays"
   ],
   "note": "Processes that pack different data may leave an archive that holds chunks of both and is read without an exception (example in Props/Race.lean)."
  },
  {
   "property": "C11",
   "status": "proved",
   "theorems": [
    "Bloscpack.C11_failed_rewrite_untouched",
    "Bloscpack.C11_reasons"
   ],
   "note": ""
  },
  {
   "property": "C110",
   "status": "proved",
   "theorems": [
    "Bloscpack.C110_data",
    "Bloscpack.C110_append",
    "Bloscpack.C110_read"
   ],
   "note": "C110_append adds a process that appends meanwhile: then it is all of the data, old and new. The writes may be any list of writes that some rewrite of the archive makes, so also those of processes that are stopped between two writes. Which metadata come out is not claimed: a mixture that cannot be told from one of them by its digest may be read (example in Props/ManyRewrites.lean)."
  },
  {
   "property": "C111",
   "status": "partial",
   "theorems": [
    "Bloscpack.C111_alone",
    "Bloscpack.C111_kept_partial",
    "Bloscpack.C111_compress_violated",
    "Bloscpack.C111_decompress_violated",
    "Bloscpack.C111_two_violated",
    "Bloscpack.C111_input_gone"
   ],
   "note": "The code violates the property: it looks whether the output exists, and opens it for writing later. C111_compress_violated and C111_decompress_violated show it for every file that is created in between, C111_two_violated for every two compressions to the same new file. Other programs change files after the check and after the metadata have been read, not while pack_file_to_file or unpack_file_from_file run."
  },
  {
   "property": "C112",
   "status": "partial",
   "theorems": [
    "Bloscpack.C112_bytes_partial",
    "Bloscpack.C112_one_after_the_other_partial",
    "Bloscpack.C112_mixture_violated"
   ],
   "note": "The code violates the property: C112_mixture_violated gives, for every two data whose chunks are compressed to the same sizes, an interleaving after which the archive holds the first k chunks of the one and the other chunks of the other one, and is read without an exception. The checksums are those of single chunks and do not notice it."
  },
  {
   "property": "C113",
   "status": "proved",
   "theorems": [
    "Bloscpack.C113_pack",
    "Bloscpack.C113_unpack"
   ],
   "note": "For sources whose compress_func is the inherited one (blosc.compress). The source is asked for its chunks independently of the state of the sink."
  },
  {
   "property": "C114",
   "status": "proved",
   "theorems": [
    "Bloscpack.C114_repr",
    "Bloscpack.C114_header",
    "Bloscpack.C114_metadata_header"
   ],
   "note": "Strings are printable ASCII without quotes and backslashes, which all names in headers are. The text is read by a reader for calls with literals (Spec/PyCall.lean) that accepts printable ASCII only."
  },
  {
   "property": "C115",
   "status": "proved",
   "theorems": [
    "Bloscpack.C115_stored",
    "Bloscpack.C115_layout",
    "Bloscpack.C115_layout_bytes",
    "Bloscpack.C115_again"
   ],
   "note": "C115_layout is for any sink; C115_again is for types without gaps (see C28). The array is not changed while it is packed."
  },
  {
   "property": "C116",
   "status": "proved",
   "theorems": [
    "Bloscpack.C116_changed",
    "Bloscpack.C116_copied",
    "Bloscpack.C116_unchanged"
   ],
   "note": "One call of blosc.compress_ptr, and the copy of an array, are taken to see one state of the memory (python-blosc holds the interpreter lock by default). Types without gaps (see C28)."
  },
  {
   "property": "C117",
   "status": "partial",
   "theorems": [
    "Bloscpack.C117_read",
    "Bloscpack.C117_behind_partial",
    "Bloscpack.C117_violated"
   ],
   "note": "CompressedFPSink.finalize seeks to a place counted from the beginning of the file, so packing with offsets (the default) behind other content writes its offsets over that content and leaves -1 in its own; C117_violated gives the exact bytes. Reading, and packing without offsets, are proved for all contents and lists of packings."
  },
  {
   "property": "C118",
   "status": "partial",
   "theorems": [
    "Bloscpack.C118_reuse_partial",
    "Bloscpack.C118_memory",
    "Bloscpack.C118_violated"
   ],
   "note": "CompressedFPSink.write_metadata adds to meta_total, which is only set to 0 when the sink is made. C118_violated gives the exact bytes that packing with offsets to a sink that was given metadata leaves. Packing without offsets, or to a sink that was never given metadata, is proved for all histories, as is packing to a sink in memory."
  },
  {
   "property": "C119",
   "status": "partial",
   "theorems": [
    "Bloscpack.C119_twice_partial",
    "Bloscpack.C119_again_partial",
    "Bloscpack.C119_rewound_partial",
    "Bloscpack.C119_violated"
   ],
   "note": "A PlainFPSource reads from where its file object is, and pack does not compare what it read with the size it announced. C119_violated: packing from a used source returns too and gives an archive that unpacks to nothing. Unpacking again is proved to raise an exception if less than 16 bytes follow the archive, and to give the data again if the file object is set back. C119_again_partial says exactly which bytes behind the archive a second unpacking takes for its chunks."
  },
  {
   "property": "C12",
   "status": "proved",
   "theorems": [
    "Bloscpack.C12_offsets_exact"
   ],
   "note": ""
  },
  {
   "property": "C120",
   "status": "partial",
   "theorems": [
    "Bloscpack.C120_file_partial",
    "Bloscpack.C120_memory_partial",
    "Bloscpack.C120_full_partial",
    "Bloscpack.C120_array",
    "Bloscpack.C120_violated",
    "Bloscpack.C120_retry_violated"
   ],
   "note": "PlainNumpySink.put moves its pointer and nothing sets it back. C120_array gives the exact memory after any history of unpackings; C120_violated and C120_retry_violated show the array and the memory behind it after a second unpacking. Files and sinks in memory are proved for all histories."
  },
  {
   "property": "C13",
   "status": "proved",
   "theorems": [
    "Bloscpack.C13_append",
    "Bloscpack.C13_total",
    "Bloscpack.packed_appendable"
   ],
   "note": ""
  },
  {
   "property": "C14",
   "status": "proved",
   "theorems": [
    "Bloscpack.C14_history"
   ],
   "note": "Rewrites of the metadata to None are not among the operations: appending afterwards destroys the metadata section, see C51. Files of 2^63 bytes or more are excluded."
  },
  {
   "property": "C15",
   "status": "proved",
   "theorems": [
    "Bloscpack.C15_not_enough_space",
    "Bloscpack.C15_bookkeeping"
   ],
   "note": ""
  },
  {
   "property": "C16",
   "status": "proved",
   "theorems": [
    "Bloscpack.C16_failed_append_untouched",
    "Bloscpack.C16_small"
   ],
   "note": "Files that would reach 2^63 bytes are excluded: their offsets do not fit the 8-byte fields, and the error comes after the writes. Files whose metadata section holds null are excluded, see C51."
  },
  {
   "property": "C17",
   "status": "proved",
   "theorems": [
    "Bloscpack.C17_same_chunking"
   ],
   "note": ""
  },
  {
   "property": "C18",
   "status": "proved",
   "theorems": [
    "Bloscpack.C18_offsets_exact"
   ],
   "note": ""
  },
  {
   "property": "C19",
   "status": "proved",
   "theorems": [
    "Bloscpack.C19_append_needs_offsets"
   ],
   "note": ""
  },
  {
   "property": "C20",
   "status": "partial",
   "theorems": [
    "Bloscpack.C20_violated",
    "Bloscpack.C20_append_nothing_partial",
    "Bloscpack.C20_append_nothing_succeeds_partial"
   ],
   "note": "The code violates the property: C20_violated derives the ValueError for every file packed from empty input and every non-empty append."
  },
  {
   "property": "C21",
   "status": "proved",
   "theorems": [
    "Bloscpack.C21_single_byte"
   ],
   "note": ""
  },
  {
   "property": "C22",
   "status": "proved",
   "theorems": [
    "Bloscpack.C22_only_verified",
    "Bloscpack.C22_collision",
    "Bloscpack.C81_memory"
   ],
   "note": ""
  },
  {
   "property": "C23",
   "status": "partial",
   "theorems": [
    "Bloscpack.C23_truncation_partial",
    "Bloscpack.C23_truncation_without_checksum",
    "Bloscpack.C23_violated",
    "Bloscpack.C23_exact"
   ],
   "note": "The code violates the property at exactly one cut position per file with a checksum: C23_violated proves acceptance there for all packed files, C23_truncation_partial proves detection everywhere else, C23_truncation_without_checksum the full property for checksum None."
  },
  {
   "property": "C24",
   "status": "proved",
   "theorems": [
    "Bloscpack.C24_truncated_output",
    "Bloscpack.C24_corrupted_output"
   ],
   "note": ""
  },
  {
   "property": "C25",
   "status": "proved",
   "theorems": [
    "Bloscpack.C25_offsets_minus_one"
   ],
   "note": ""
  },
  {
   "property": "C26",
   "status": "proved",
   "theorems": [
    "Bloscpack.C26_interrupted_pack",
    "Bloscpack.C26_writes"
   ],
   "note": ""
  },
  {
   "property": "C27",
   "status": "proved",
   "theorems": [
    "Bloscpack.C27_interrupted_append",
    "Bloscpack.C27_writes"
   ],
   "note": ""
  },
  {
   "property": "C28",
   "status": "partial",
   "theorems": [
    "Bloscpack.C28_roundtrip_partial",
    "Bloscpack.C28_violated",
    "Bloscpack.C28_exact",
    "Bloscpack.C28_gaps_partial",
    "Bloscpack.C28_gaps_fields_partial",
    "Bloscpack.C28_unreadable"
   ],
   "note": "numpy arrays modelled as strided views of memory. The code violates the property for record types with gaps: C28_violated shows no bytes at all are unpacked to such a type. C28_roundtrip_partial: any layout, any type without gaps. C28_gaps_partial, C28_gaps_fields_partial: with gaps, the shape and the bytes of all elements come back, and all fields with their names, titles, places and shapes, and each gap becomes an additional field f0, f1, ... C28_unreadable: if a field has such a name already, the packed array cannot be unpacked."
  },
  {
   "property": "C29",
   "status": "proved",
   "theorems": [
    "Bloscpack.C29_objects_rejected",
    "Bloscpack.C29_objects_only",
    "Bloscpack.C29_accepted_iff",
    "Bloscpack.C29_exceptions",
    "Bloscpack.C29_order"
   ],
   "note": "C29_objects_only assumes that blosc, zlib and the serializer do not raise ObjectNumpyArrayRejection themselves. Settings other than the chunk size and typesize are assumed valid in C29_accepted_iff."
  },
  {
   "property": "C30",
   "status": "proved",
   "theorems": [
    "Bloscpack.C30_pairs_tile",
    "Bloscpack.C30_unpack_fills"
   ],
   "note": ""
  },
  {
   "property": "C31",
   "status": "proved",
   "theorems": [
    "Bloscpack.C31_memory_roundtrip",
    "Bloscpack.C31_memory_as_file",
    "Bloscpack.C31_sources_agree",
    "Bloscpack.C31_plain_sinks_agree"
   ],
   "note": "memory sink/source round trip for every list of chunks; memory sink against file sink; list source against file source for every sink; plain sinks agree for every source and state, including failures"
  },
  {
   "property": "C32",
   "status": "proved",
   "theorems": [
    "Bloscpack.C32_exact",
    "Bloscpack.C32_ignored",
    "Bloscpack.C32_rejected",
    "Bloscpack.C32_header"
   ],
   "note": ""
  },
  {
   "property": "C33",
   "status": "proved",
   "theorems": [
    "Bloscpack.C33_check_args"
   ],
   "note": ""
  },
  {
   "property": "C34",
   "status": "proved",
   "theorems": [
    "Bloscpack.C34_compress",
    "Bloscpack.C34_decompress",
    "Bloscpack.C34_refused",
    "Bloscpack.C34_inverse"
   ],
   "note": ""
  },
  {
   "property": "C35",
   "status": "proved",
   "theorems": [
    "Bloscpack.C35_no_overwrite"
   ],
   "note": ""
  },
  {
   "property": "C36",
   "status": "proved",
   "theorems": [
    "Bloscpack.C36_roundtrip",
    "Bloscpack.C36_total"
   ],
   "note": ""
  },
  {
   "property": "C37",
   "status": "proved",
   "theorems": [
    "Bloscpack.C37_size"
   ],
   "note": ""
  },
  {
   "property": "C38",
   "status": "proved",
   "theorems": [
    "Bloscpack.C38_exact",
    "Bloscpack.C38_integer",
    "Bloscpack.C38_str",
    "Bloscpack.C38_decimal",
    "Bloscpack.C38_nearest",
    "Bloscpack.C38_rejected",
    "Bloscpack.C38_empty",
    "Bloscpack.C38_not_finite",
    "Bloscpack.C38_no_digit"
   ],
   "note": "Digits and whitespace outside ASCII are not modelled."
  },
  {
   "property": "C39",
   "status": "partial",
   "theorems": [
    "Bloscpack.C39_filter",
    "Bloscpack.C39_every_message",
    "Bloscpack.C39_levels",
    "Bloscpack.C39_unknown_level",
    "Bloscpack.C39_unknown_current",
    "Bloscpack.C39_error",
    "Bloscpack.C39_set_level_violated",
    "Bloscpack.C39_set_level_partial"
   ],
   "note": "The filtering, prefixing and exit code part is proved. The code violates the set_level part: C39_set_level_violated shows that set_level never changes the level."
  },
  {
   "property": "C40",
   "status": "partial",
   "theorems": [
    "Bloscpack.C40_pack_violated",
    "Bloscpack.C40_pack_history",
    "Bloscpack.C40_pack_partial",
    "Bloscpack.C40_ndarray_violated",
    "Bloscpack.C40_append_violated",
    "Bloscpack.C40_append_partial",
    "Bloscpack.C40_append_exact_partial",
    "Bloscpack.C40_append_refused"
   ],
   "note": "The code violates the property in three places, each proved with its exact condition and, for packing and appending, its effect on later calls."
  },
  {
   "property": "C41",
   "status": "proved",
   "theorems": [
    "Bloscpack.C41_conv",
    "Bloscpack.C41_old_files"
   ],
   "note": "Titles of fields are lost by the conversion (C41_title_lost); the theorems ask for descriptions without titles."
  },
  {
   "property": "C42",
   "status": "proved",
   "theorems": [
    "Bloscpack.C42_exact",
    "Bloscpack.C42_roundtrip",
    "Bloscpack.C42_ascii"
   ],
   "note": "CPython json.dumps/json.loads modelled on code points: reading back what was written gives the object with surrogate pairs joined, hence the object itself iff no string of it contains a high surrogate directly followed by a low one; the text is ASCII. Floats are read correctly rounded and written with the fewest digits that read back as the same float; all NaNs are one here."
  },
  {
   "property": "C43",
   "status": "partial",
   "theorems": [
    "Bloscpack.C43_violated",
    "Bloscpack.C43_undecodable_partial"
   ],
   "note": "The code violates the property: C43_violated shows that any wrong digest of the last chunk goes unnoticed and the result unpacks without complaint."
  },
  {
   "property": "C44",
   "status": "partial",
   "theorems": [
    "Bloscpack.C44_violated",
    "Bloscpack.C44_preserved_partial"
   ],
   "note": "The code violates the property: ZeroDivisionError for every conforming file; C44_preserved_partial shows that the contents survive."
  },
  {
   "property": "C45",
   "status": "proved",
   "theorems": [
    "Bloscpack.C45_version",
    "Bloscpack.C45_packed_version",
    "Bloscpack.C45_not_bloscpack"
   ],
   "note": ""
  },
  {
   "property": "C46",
   "status": "partial",
   "theorems": [
    "Bloscpack.C46_pack_agree",
    "Bloscpack.C46_unpack_files",
    "Bloscpack.C46_unpack_agree_partial",
    "Bloscpack.C46_unpack_memory",
    "Bloscpack.C46_unpack_violated"
   ],
   "note": "The code violates the property for forged metadata sizes: C46_unpack_violated gives a family of inputs accepted in memory and rejected as files. Everything else agrees (C46_unpack_agree_partial), and what a file unpacks to is always also what its bytes unpack to in memory (C46_unpack_memory)."
  },
  {
   "property": "C47",
   "status": "proved",
   "theorems": [
    "Bloscpack.C47_digest_sizes",
    "Bloscpack.C47_adler32",
    "Bloscpack.C47_crc32"
   ],
   "note": ""
  },
  {
   "property": "C48",
   "status": "partial",
   "theorems": [
    "Bloscpack.C48_level_partial",
    "Bloscpack.C48_violated"
   ],
   "note": "The code violates the property: C48_violated derives it for all inputs where compression does not pay."
  },
  {
   "property": "C49",
   "status": "partial",
   "theorems": [
    "Bloscpack.C49_violated",
    "Bloscpack.C49_exit_partial"
   ],
   "note": "The code violates the property: C49_violated derives AttributeError for every such file. C49_exit_partial shows what does hold."
  },
  {
   "property": "C50",
   "status": "proved",
   "theorems": [
    "Bloscpack.C50_blosc_header",
    "Bloscpack.C50_blosc_header_total",
    "Bloscpack.C50_blosc_flags"
   ],
   "note": ""
  },
  {
   "property": "C51",
   "status": "partial",
   "theorems": [
    "Bloscpack.C51_violated",
    "Bloscpack.C51_small_append_partial"
   ],
   "note": "The code violates the property: C51_violated shows that every append that adds a chunk makes the file unreadable."
  },
  {
   "property": "C52",
   "status": "partial",
   "theorems": [
    "Bloscpack.C52_violated",
    "Bloscpack.C52_offsets",
    "Bloscpack.C52_known_partial"
   ],
   "note": "The code violates the property: C52_violated derives the empty output for every such header and content."
  },
  {
   "property": "C53",
   "status": "proved",
   "theorems": [
    "Bloscpack.C53_info_readonly",
    "Bloscpack.C53_info_rejects",
    "Bloscpack.C53_info_packed"
   ],
   "note": ""
  },
  {
   "property": "C54",
   "status": "proved",
   "theorems": [
    "Bloscpack.C54_refused",
    "Bloscpack.C54_only_original",
    "Bloscpack.C54_append"
   ],
   "note": "Original and new file are different names; the same name for both is not modelled. Sizes below 2^62."
  },
  {
   "property": "C55",
   "status": "partial",
   "theorems": [
    "Bloscpack.C55_violated",
    "Bloscpack.C55_with_metadata_partial",
    "Bloscpack.C55_outcomes"
   ],
   "note": "The code violates the property: C55_violated shows it for every O packed without metadata."
  },
  {
   "property": "C56",
   "status": "partial",
   "theorems": [
    "Bloscpack.C56_violated",
    "Bloscpack.C56_append_violated",
    "Bloscpack.C56_written_partial"
   ],
   "note": "The code violates the property: C56_violated shows it for every packed data whose length differs from the announced size."
  },
  {
   "property": "C57",
   "status": "proved",
   "theorems": [
    "Bloscpack.C57_crc32",
    "Bloscpack.C57_adler32"
   ],
   "note": "The damaged chunk keeps its length field (bytes 12-15 of its blosc header); C57_adler32_limit shows adler32 misses a change of three bytes."
  },
  {
   "property": "C58",
   "status": "proved",
   "theorems": [
    "Bloscpack.C58_outside",
    "Bloscpack.C58_between",
    "Bloscpack.C58_torn"
   ],
   "note": "Crash model: the writes reach the file in program order, the last one possibly in part. C58_writes shows the recorded writes are complete. Which metadata is returned is not claimed."
  },
  {
   "property": "C59",
   "status": "partial",
   "theorems": [
    "Bloscpack.C59_violated",
    "Bloscpack.C59_rejected_partial",
    "Bloscpack.C59_arrays_pass"
   ],
   "note": "The code violates the property: C59_violated gives the exception for every metadata without a container entry."
  },
  {
   "property": "C60",
   "status": "partial",
   "theorems": [
    "Bloscpack.C60_violated",
    "Bloscpack.C60_ndarray_violated",
    "Bloscpack.C60_refused_partial"
   ],
   "note": "The code violates the property: C60_violated and C60_ndarray_violated show it for every existing file and every such refusal."
  },
  {
   "property": "C61",
   "status": "proved",
   "theorems": [
    "Bloscpack.C61_pack",
    "Bloscpack.C61_roundtrip"
   ],
   "note": ""
  },
  {
   "property": "C62",
   "status": "proved",
   "theorems": [
    "Bloscpack.C62_text",
    "Bloscpack.C62_back",
    "Bloscpack.C62_exact",
    "Bloscpack.C62_other",
    "Bloscpack.C62_double"
   ],
   "note": "Sizes below 2^53; C62_other: 0 is written 0B and read back, a negative size gives None."
  },
  {
   "property": "C63",
   "status": "proved",
   "theorems": [
    "Bloscpack.C63_keys",
    "Bloscpack.C63_kept",
    "Bloscpack.C63_last",
    "Bloscpack.C63_copy",
    "Bloscpack.C63_refused",
    "Bloscpack.C63_update",
    "Bloscpack.C63_eq",
    "Bloscpack.C63_copy_eq",
    "Bloscpack.C63_items",
    "Bloscpack.C63_blosc_args"
   ],
   "note": "collections.abc.MutableMapping is modelled as documented."
  },
  {
   "property": "C64",
   "status": "proved",
   "theorems": [
    "Bloscpack.C64_info",
    "Bloscpack.C64_info_packed",
    "Bloscpack.C64_header_told",
    "Bloscpack.C64_metadata_header_told",
    "Bloscpack.C64_chunk_header_told"
   ],
   "note": "The text pprint gives for metadata is a parameter. Hypothesis: the first chunk names one of the five codecs blosc documents (else KeyError)."
  },
  {
   "property": "C65",
   "status": "partial",
   "theorems": [
    "Bloscpack.C65_violated",
    "Bloscpack.C65_cli_violated",
    "Bloscpack.C65_refused_partial"
   ],
   "note": "The code violates the property: C65_violated shows it for every input that cannot be unpacked and every existing file."
  },
  {
   "property": "C66",
   "status": "partial",
   "theorems": [
    "Bloscpack.C66_unpack_violated",
    "Bloscpack.C66_pack_violated",
    "Bloscpack.C66_input_kept_partial"
   ],
   "note": "The code violates the property, for every file. Simplification for packing: the reads do not see what is being written to the same file meanwhile."
  },
  {
   "property": "C67",
   "status": "proved",
   "theorems": [
    "Bloscpack.C67_holds_what_was_read",
    "Bloscpack.C67_input_changed"
   ],
   "note": ""
  },
  {
   "property": "C68",
   "status": "proved",
   "theorems": [
    "Bloscpack.C68_verbosity",
    "Bloscpack.C68_quiet"
   ],
   "note": "The texts of the verbose and debug messages are arbitrary; formatting them never raises in the model."
  },
  {
   "property": "C69",
   "status": "partial",
   "theorems": [
    "Bloscpack.C69_size",
    "Bloscpack.C69_accepted",
    "Bloscpack.C69_meaning",
    "Bloscpack.C69_refused_partial",
    "Bloscpack.C69_violated"
   ],
   "note": "The code violates the property: C69_violated gives the values that end with a traceback instead of an error message."
  },
  {
   "property": "C70",
   "status": "proved",
   "theorems": [
    "Bloscpack.C70_order"
   ],
   "note": ""
  },
  {
   "property": "C71",
   "status": "proved",
   "theorems": [
    "Bloscpack.C71_compress"
   ],
   "note": ""
  },
  {
   "property": "C72",
   "status": "proved",
   "theorems": [
    "Bloscpack.C72_int",
    "Bloscpack.C72_accepted",
    "Bloscpack.C72_refused",
    "Bloscpack.C72_usage"
   ],
   "note": "How argparse splits the words of the command line into options, values and file names is not modelled."
  },
  {
   "property": "C73",
   "status": "proved",
   "theorems": [
    "Bloscpack.C73_only_output",
    "Bloscpack.info_writes_nothing"
   ],
   "note": ""
  },
  {
   "property": "C74",
   "status": "proved",
   "theorems": [
    "Bloscpack.C74_session",
    "Bloscpack.C74_decompress"
   ],
   "note": "No command appends a file to itself, and appended files are small enough for offsets below 2^63."
  },
  {
   "property": "C75",
   "status": "partial",
   "theorems": [
    "Bloscpack.C75_uniform_partial",
    "Bloscpack.C75_violated",
    "Bloscpack.C75_blpk_violated"
   ],
   "note": "The code violates the property, for every packed file. For files with offsets. Assumes that blosc records the typesize it was given in byte 3 of its header."
  },
  {
   "property": "C76",
   "status": "proved",
   "theorems": [
    "Bloscpack.C76_settings",
    "Bloscpack.C76_defaults"
   ],
   "note": ""
  },
  {
   "property": "C77",
   "status": "proved",
   "theorems": [
    "Bloscpack.C77_appends_what_was_read",
    "Bloscpack.C77_announced_size"
   ],
   "note": "What the reads deliver is a parameter (an arbitrary list of pieces), so appending a file to itself is covered; that read and write positions of the two file objects do not interfere otherwise is the operating system's."
  },
  {
   "property": "C78",
   "status": "proved",
   "theorems": [
    "Bloscpack.C78_last_chunk_only",
    "Bloscpack.C78_untouched_bytes"
   ],
   "note": "Crash model: the writes reach the file in program order, the last one possibly in part. For C78_last_chunk_only the write of the 32 byte header is all or nothing: a header cut in the middle of its chunk count can hold any number of chunks."
  },
  {
   "property": "C79",
   "status": "proved",
   "theorems": [
    "Bloscpack.C79_accepted",
    "Bloscpack.C79_meaning",
    "Bloscpack.C79_refused",
    "Bloscpack.C79_reserved_options"
   ],
   "note": "The reserved option bits of the header are not looked at by the code when a header is read; C79_reserved_options is about the function that reads them."
  },
  {
   "property": "C80",
   "status": "partial",
   "theorems": [
    "Bloscpack.C80_violated",
    "Bloscpack.C80_too_many_partial",
    "Bloscpack.C80_file_too_many_partial",
    "Bloscpack.C80_too_few",
    "Bloscpack.C80_file_too_few",
    "Bloscpack.C80_slots"
   ],
   "note": "The code violates the property for files without offsets: C80_violated shows it for every list longer than announced. The other theorems: too many chunks into memory or a file with offsets fail; too few, into memory or any file, cannot be unpacked; sinks with slots."
  },
  {
   "property": "C81",
   "status": "proved",
   "theorems": [
    "Bloscpack.C81_memory",
    "Bloscpack.C81_file",
    "Bloscpack.C81_files"
   ],
   "note": "The specification of what an archive is (Spec/Archive.lean) follows the format description plus what the reader tolerates: a last chunk without digest, metadata cut short, an offsets section cut short behind the chunks it announces, and forged sizes that lead the reader backwards."
  },
  {
   "property": "C82",
   "status": "partial",
   "theorems": [
    "Bloscpack.C82_packed",
    "Bloscpack.C82_accepted",
    "Bloscpack.C82_violated"
   ],
   "note": "The code violates the property: C82_violated shows it for every packed file with checksums. C82_accepted has hypotheses on metadata (body complete); C82_packed covers everything packing writes."
  },
  {
   "property": "C83",
   "status": "proved",
   "theorems": [
    "Bloscpack.C83_accepted",
    "Bloscpack.C83_forged"
   ],
   "note": ""
  },
  {
   "property": "C84",
   "status": "proved",
   "theorems": [
    "Bloscpack.C84_unpack_memory",
    "Bloscpack.C84_unpack_file",
    "Bloscpack.C84_no_header",
    "Bloscpack.C84_append",
    "Bloscpack.C84_rewrite"
   ],
   "note": "MemoryError, KeyboardInterrupt, I/O errors of the operating system and recursion limits are not modelled."
  },
  {
   "property": "C85",
   "status": "partial",
   "theorems": [
    "Bloscpack.C85_appends_partial",
    "Bloscpack.C85_history_partial",
    "Bloscpack.C85_failed_untouched_partial",
    "Bloscpack.C85_unknown_chunk_size",
    "Bloscpack.C85_unknown_last_chunk_violated",
    "Bloscpack.C85_long_last_chunk_violated",
    "Bloscpack.C85_failed_violated",
    "Bloscpack.C85_wrong_offset_violated"
   ],
   "note": "The code violates the property in four ways, each proved for every such file. The positive part: right offsets, chunk size not below the last chunk, last chunk size not above the true one."
  },
  {
   "property": "C86",
   "status": "partial",
   "theorems": [
    "Bloscpack.C86_alone",
    "Bloscpack.C86_last_chunk_only_partial",
    "Bloscpack.C86_new_header_partial",
    "Bloscpack.C86_violated"
   ],
   "note": "The code violates the property: C86_violated shows it for every append that needs more chunks and finds a last chunk that is not full. Missing from the positive part: a reader that saw the old header may get a part of the new data. Model of the reader: the 32 bytes of the header are fetched at one moment between two writes, every other byte at any later moment, also in the middle of a write."
  },
  {
   "property": "C87",
   "status": "partial",
   "theorems": [
    "Bloscpack.C87_violated",
    "Bloscpack.C87_last_chunk_only_partial",
    "Bloscpack.C87_one_after_the_other_partial",
    "Bloscpack.C87_same_writes"
   ],
   "note": "The code violates the property: C87_violated shows for every two appends that one of them can be lost although both succeed. Both processes read what they need before either writes; single writes are not interleaved."
  },
  {
   "property": "C88",
   "status": "proved",
   "theorems": [
    "Bloscpack.C88_append_and_rewrite"
   ],
   "note": "Both processes read what they need before either writes; single writes are not interleaved."
  },
  {
   "property": "C89",
   "status": "proved",
   "theorems": [
    "Bloscpack.C89_data"
   ],
   "note": "The 32 bytes of the metadata header are fetched at one moment between two writes, every other byte at any moment. Which metadata come out is not claimed."
  },
  {
   "property": "C90",
   "status": "partial",
   "theorems": [
    "Bloscpack.C90_violated",
    "Bloscpack.C90_packs_partial"
   ],
   "note": "The code violates the property: C90_violated shows it for every input that can be packed at all. MemoryError, which ends packing for far smaller numbers on real machines, is not modelled."
  },
  {
   "property": "C91",
   "status": "proved",
   "theorems": [
    "Bloscpack.C91_only_verified",
    "Bloscpack.C91_guard"
   ],
   "note": "Stated as independence: any other blosc, zlib and json that treat the verified bytes alike give the same result. A chunk at the very end of the file is decompressed without a digest (see C23)."
  },
  {
   "property": "C92",
   "status": "proved",
   "theorems": [
    "Bloscpack.C92_pack",
    "Bloscpack.C92_pack_size",
    "Bloscpack.C92_append",
    "Bloscpack.C92_append_size"
   ],
   "note": "Stated as independence: any other way to compress that treats these pieces alike gives the same result."
  },
  {
   "property": "C93",
   "status": "proved",
   "theorems": [
    "Bloscpack.C93_memory",
    "Bloscpack.C93_file",
    "Bloscpack.C93_refused",
    "Bloscpack.C93_left_behind"
   ],
   "note": "The data may be longer or shorter than the array that the metadata describe; the code does not compare them (see C56). Dtype descriptions are handed to an arbitrary model of numpy.dtype; descriptions other than strings and lists of tuples (None, dicts) and shapes of booleans or null are not modelled."
  },
  {
   "property": "C94",
   "status": "proved",
   "theorems": [
    "Bloscpack.C94_append",
    "Bloscpack.C94_rewrite",
    "Bloscpack.C94_new_content"
   ],
   "note": "append and rewriting metadata are applied to the file object itself, at its beginning."
  },
  {
   "property": "C95",
   "status": "partial",
   "theorems": [
    "Bloscpack.C95_violated",
    "Bloscpack.C95_rewound_partial",
    "Bloscpack.C95_twice_partial"
   ],
   "note": "The code violates the property: C95_violated shows it for every append that does not use up the room for new chunks. (Otherwise the second call takes the first chunk for a header; what happens then depends on the bytes blosc makes.)"
  },
  {
   "property": "C96",
   "status": "proved",
   "theorems": [
    "Bloscpack.C96_stored",
    "Bloscpack.C96_read",
    "Bloscpack.C96_one_meaning"
   ],
   "note": "The grammar (Spec/Literal.lean) covers strings, decimal integers, tuples and lists; not octal and named escapes, prefixes and triple quotes, adjacent strings, underscores, other bases, comments, and other types. A text with these is taken for one that is no literal. Leading blanks are allowed as in Python 3.10 and later; the limits of Python on nesting depth and digits are not modelled."
  },
  {
   "property": "C97",
   "status": "proved",
   "theorems": [
    "Bloscpack.C97_all_at_once",
    "Bloscpack.C97_split"
   ],
   "note": "The settings for metadata are given for histories whose rewrites name codec and level, as the defaults do; a rewrite without codec goes on with the codec that was used last, which is None if compression did not help. Histories do not write the metadata null (C51)."
  },
  {
   "property": "C98",
   "status": "proved",
   "theorems": [
    "Bloscpack.C98_read",
    "Bloscpack.C98_refused",
    "Bloscpack.C98_one_meaning",
    "Bloscpack.C98_written",
    "Bloscpack.C98_section",
    "Bloscpack.C98_foreign",
    "Bloscpack.C98_whole"
   ],
   "note": "Of the model of the json module and of float() and repr() of floats, which are correctly rounded; not modelled: the limit on the number of digits of integers in newer Python. What is written for strings with a high surrogate directly before a low one spells another string (C42)."
  },
  {
   "property": "C99",
   "status": "proved",
   "theorems": [
    "Bloscpack.C99_refused",
    "Bloscpack.C99_accepted",
    "Bloscpack.C99_file",
    "Bloscpack.C99_array"
   ],
   "note": "For inputs below 2^50 bytes and less than 2^59 append chunks asked for; beyond that the table of offsets can be too large (C90)."
  }
 ]
}
