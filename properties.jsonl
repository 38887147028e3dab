{"id": "C01", "title": "pack/unpack byte round trip", "statement": "If pack_bytes_to_bytes(b, ...) returns, then unpack_bytes_from_bytes of the result returns exactly b and exactly the metadata that was given (None when none was given); and with valid settings pack_bytes_to_bytes does return.", "quantifier": "every byte string, chunk size, checksum, offsets flag, max_app_chunks, blosc arguments, metadata and metadata arguments", "why_tests_cant": "infinitely many inputs and setting combinations; tests use one array and a handful of chunk sizes", "anchors": ["bloscpack/file_io.py:pack_bytes_to_bytes", "bloscpack/file_io.py:unpack_bytes_from_bytes", "bloscpack/abstract_io.py:pack", "bloscpack/abstract_io.py:unpack"]}
{"id": "C02", "title": "chunking covers the input exactly", "statement": "When calculate_nchunks(n, c) returns (k, c', l): c'*(k-1)+l = n, every chunk is non-empty and no chunk is longer than the requested chunk size (n > 0), l <= c', k is the smallest possible number of chunks, and k fits the header's int64 field; n = 0 gives one empty chunk.", "quantifier": "every input size and requested chunk size", "why_tests_cant": "off-by-one errors sit at remainders and boundaries of an unbounded domain", "anchors": ["bloscpack/args.py:calculate_nchunks"]}
{"id": "C03", "title": "chunking is rejected exactly when it must be", "statement": "calculate_nchunks raises ValueError for a negative size or (size > 0) a chunk size outside 1..BLOSC_MAX_BUFFERSIZE, TypeError for a non-integer chunk size, ChunkingException exactly when more than 2^63-1 chunks would be needed, and otherwise returns.", "quantifier": "every input size and chunk size argument (int, human readable string, other)", "why_tests_cant": "acceptance is an iff over an unbounded domain", "anchors": ["bloscpack/args.py:calculate_nchunks", "bloscpack/headers.py:check_range"]}
{"id": "C04", "title": "bloscpack header round trip and layout", "statement": "Every header the constructor accepts encodes to exactly 32 bytes laid out as in the README (magic, version, options, checksum, typesize, chunk-size, last-chunk, nchunks, max-app-chunks, little-endian), and decoding those bytes gives the same header back.", "quantifier": "every constructible header, including the -1 placeholders and all int32/int64 extremes", "why_tests_cant": "2^200 headers", "anchors": ["bloscpack/headers.py:BloscpackHeader.encode", "bloscpack/headers.py:BloscpackHeader.decode"]}
{"id": "C05", "title": "bloscpack header decoding is strict", "statement": "A buffer that decodes successfully is exactly 32 bytes, starts with the magic, satisfies every documented header constraint, and re-encodes to itself: no two different buffers decode to the same header and no invalid field value is accepted.", "quantifier": "every byte string of any length", "why_tests_cant": "all 2^256 buffers", "anchors": ["bloscpack/headers.py:BloscpackHeader.decode", "bloscpack/headers.py:BloscpackHeader.__init__"]}
{"id": "C06", "title": "metadata header round trip", "statement": "Every metadata header the constructor accepts whose magic-format and user-codec do not start or end with a NUL byte encodes to 32 bytes and decodes to itself; with leading/trailing NULs the decoded value is the stripped one.", "quantifier": "every constructible metadata header", "why_tests_cant": "unbounded field combinations", "anchors": ["bloscpack/headers.py:MetadataHeader.encode", "bloscpack/headers.py:MetadataHeader.decode"]}
{"id": "C07", "title": "integer field codecs", "statement": "encode/decode of uint8, uint32, int32 and int64 fields are inverse bijections on exactly the representable range, little-endian, and out-of-range values are rejected rather than wrapped.", "quantifier": "every integer and every byte string of the field width", "why_tests_cant": "2^64 values and the out-of-range integers", "anchors": ["bloscpack/headers.py:encode_int64", "bloscpack/headers.py:decode_int64", "bloscpack/headers.py:encode_uint32", "bloscpack/headers.py:encode_int32"]}
{"id": "C08", "title": "metadata section round trip", "statement": "Metadata written by _write_metadata is read back unchanged by _read_metadata, for every codec, level, checksum and preallocation; the section occupies exactly the reported number of bytes and the reader stops exactly at its end.", "quantifier": "every metadata value, metadata argument set, file content before and after", "why_tests_cant": "all settings x all metadata x all positions", "anchors": ["bloscpack/file_io.py:_write_metadata", "bloscpack/file_io.py:_read_metadata"]}
{"id": "C09", "title": "opportunistic metadata compression", "statement": "The stored metadata is never larger than the serialized metadata; the compressed form is stored only if it is not larger, and the header's codec field says which form was stored; if it does not fit the reserved space MetadataSectionTooSmall is raised and nothing is written to the section.", "quantifier": "every metadata value, codec, level and reserved size", "why_tests_cant": "depends on compressor output for every input", "anchors": ["bloscpack/file_io.py:_write_metadata"]}
{"id": "C10", "title": "metadata rewrite changes only the metadata", "statement": "After a successful in-place metadata rewrite the file unpacks to the same data and to the new metadata; every byte outside the metadata section, and the section's extent, is unchanged.", "quantifier": "every conforming file, new metadata and override arguments", "why_tests_cant": "must hold for every file/metadata pair", "anchors": ["bloscpack/append.py:_rewrite_metadata_fp", "bloscpack/append.py:_recreate_metadata"]}
{"id": "C11", "title": "failed metadata rewrite leaves the file untouched", "statement": "If the in-place metadata rewrite raises (no metadata section, unchanged metadata, metadata too large, checksum size mismatch, unknown codec or serializer, bad level) the file is byte-for-byte unchanged.", "quantifier": "every file content (conforming or not), metadata and arguments", "why_tests_cant": "every error path x every file", "anchors": ["bloscpack/append.py:_rewrite_metadata_fp", "bloscpack/append.py:_seek_to_metadata"]}
{"id": "C12", "title": "offsets of a packed file locate every chunk", "statement": "In a packed file with offsets, entry i of the offsets table for i < nchunks is the exact position of chunk i: reading a chunk there yields the i-th slice of the input; the preallocated entries are -1.", "quantifier": "every input, settings and chunk index", "why_tests_cant": "every chunk of every file", "anchors": ["bloscpack/file_io.py:CompressedFPSink.put", "bloscpack/file_io.py:CompressedFPSink.finalize", "bloscpack/file_io.py:_read_offsets"]}
{"id": "C13", "title": "append appends", "statement": "After append_fp succeeds, unpacking yields the previous data followed by the appended bytes, with the metadata unchanged; the returned number is the number of chunks added.", "quantifier": "every conforming file (including files that were appended to before), every new content, every blosc arguments", "why_tests_cant": "the interplay of last chunk fill level, new size and chunk size is unbounded", "anchors": ["bloscpack/append.py:append_fp"]}
{"id": "C14", "title": "any history of appends and metadata rewrites behaves like a log", "statement": "Starting from any packed file, after any sequence of append and metadata rewrite calls (successful or failing, with arbitrary arguments, metadata other than None, see C51) unpacking yields the packed data followed by the contents of the successful appends in order, and the metadata last successfully written.", "quantifier": "every finite history of operations and arguments", "why_tests_cant": "histories are unbounded", "anchors": ["bloscpack/append.py:append_fp", "bloscpack/append.py:_rewrite_metadata_fp", "bloscpack/file_io.py:unpack_bytes_from_bytes"]}
{"id": "C15", "title": "append capacity bookkeeping", "statement": "Over any history nchunks + max_app_chunks in the header never changes, nchunks always equals the number of chunks present, and append raises NotEnoughSpace exactly when the number of additional chunks exceeds the remaining max_app_chunks; the offsets never overflow the reserved space.", "quantifier": "every history of appends", "why_tests_cant": "histories are unbounded", "anchors": ["bloscpack/append.py:append_fp", "bloscpack/headers.py:BloscpackHeader.total_prospective_chunks"]}
{"id": "C16", "title": "failed append leaves the file untouched", "statement": "If append_fp raises, the file is byte-for-byte what it was.", "quantifier": "every conforming file, every new content, every blosc arguments (valid or not)", "why_tests_cant": "every error path x every file", "anchors": ["bloscpack/append.py:append_fp"]}
{"id": "C17", "title": "appending gives the same chunking as packing everything at once", "statement": "After appending, the header's nchunks, chunk_size and last_chunk are those that chunking the concatenated data with the file's chunk size gives, so chunk-size*(nchunks-1)+last-chunk is the data size after any history.", "quantifier": "every conforming file and history", "why_tests_cant": "arithmetic over unbounded sizes", "anchors": ["bloscpack/append.py:append_fp", "bloscpack/args.py:calculate_nchunks"]}
{"id": "C18", "title": "offsets stay exact over append histories", "statement": "After any history of appends and rewrites entry i of the offsets table is the position of chunk i, for every i < nchunks, and reading there yields the i-th chunk_size-slice of the data; unused entries stay -1.", "quantifier": "every history and chunk index", "why_tests_cant": "histories are unbounded", "anchors": ["bloscpack/append.py:append_fp", "bloscpack/file_io.py:_write_offsets"]}
{"id": "C19", "title": "append needs offsets", "statement": "append_fp to a conforming file without offsets always raises RuntimeError and never touches the file; a file with offsets is never refused for this reason.", "quantifier": "every conforming file", "why_tests_cant": "all files", "anchors": ["bloscpack/append.py:append_fp"]}
{"id": "C20", "title": "append to a file packed from empty input", "statement": "Files packed from empty input can be appended to like any other file. (Violated by the code: the stored chunk size is 0, so every non-empty append raises ValueError.)", "quantifier": "every packed empty input and every non-empty append", "why_tests_cant": "corner of the history space no test visits", "anchors": ["bloscpack/append.py:append_fp", "bloscpack/args.py:calculate_nchunks"]}
{"id": "C21", "title": "single byte corruption is detected", "statement": "With checksum adler32 or crc32, changing any single byte of a chunk's stored digest, or of a stored chunk outside its 4 byte length field, makes unpacking raise ChecksumMismatch.", "quantifier": "every packed file, chunk, byte position and replacement byte", "why_tests_cant": "test flips one byte of one file", "anchors": ["bloscpack/abstract_io.py:unpack", "bloscpack/checksums.py:CHECKSUMS", "bloscpack/file_io.py:_read_compressed_chunk_fp"]}
{"id": "C22", "title": "unpack never accepts a chunk whose digest disagrees", "statement": "If unpacking any byte string succeeds, every chunk read with a non-empty stored digest has a digest equal to the checksum of the stored bytes; so accepting a modified chunk next to its original digest exhibits a checksum collision.", "quantifier": "every input byte string", "why_tests_cant": "all inputs", "anchors": ["bloscpack/abstract_io.py:unpack"]}
{"id": "C23", "title": "truncation is detected", "statement": "Unpacking any proper prefix of a packed file raises. (Violated in one point: with a checksum enabled, cutting exactly the last chunk's digest is accepted silently.)", "quantifier": "every packed file and every cut position", "why_tests_cant": "every cut position of every file", "anchors": ["bloscpack/abstract_io.py:unpack", "bloscpack/file_io.py:_read_compressed_chunk_fp"]}
{"id": "C24", "title": "output on failure is a prefix of the data", "statement": "If unpacking a packed file that was truncated, or corrupted in chunk i as in C21, raises, what has been written to the output so far is exactly the concatenation of leading chunks of the original data.", "quantifier": "every packed file and cut or corruption point", "why_tests_cant": "every failure point", "anchors": ["bloscpack/abstract_io.py:unpack", "bloscpack/file_io.py:PlainFPSink.put"]}
{"id": "C25", "title": "offsets are -1 until packing finished", "statement": "If packing is interrupted at any point before its final write, every complete offsets entry in the output is -1, as the README promises.", "quantifier": "every input, settings and crash point (byte granularity)", "why_tests_cant": "every crash point", "anchors": ["bloscpack/file_io.py:CompressedFPSink.init_offsets", "bloscpack/file_io.py:CompressedFPSink.finalize"]}
{"id": "C26", "title": "interrupted packing never yields wrong data", "statement": "If packing is interrupted at any byte, unpacking what is on disk either raises or returns exactly the full input and metadata.", "quantifier": "every input, settings and crash point", "why_tests_cant": "every crash point", "anchors": ["bloscpack/abstract_io.py:pack", "bloscpack/abstract_io.py:unpack"]}
{"id": "C27", "title": "interrupted append never yields wrong data at write boundaries", "statement": "If append_fp is interrupted between two write calls, unpacking the file either raises or returns the old data followed by a prefix of the appended bytes; after the old last chunk is overwritten and before completion it may raise (the operation is not crash-atomic).", "quantifier": "every conforming file, new content and crash point between writes", "why_tests_cant": "every crash point", "anchors": ["bloscpack/append.py:append_fp"]}
{"id": "C28", "title": "ndarray round trip", "statement": "If packing an ndarray returns, unpacking yields an array with the same dtype, shape and elements, whatever the memory layout (C, Fortran, strided, reversed, broadcast, zero-size, 0-d). (Violated for record types with gaps, such as aligned ones: each gap comes back as an additional field; and if a field has the name numpy gives to such a field, the array can be packed but not unpacked.)", "quantifier": "every shape, strides, itemsize and memory contents", "why_tests_cant": "layouts and shapes are unbounded", "anchors": ["bloscpack/numpy_io.py:pack_ndarray", "bloscpack/numpy_io.py:unpack_ndarray", "bloscpack/numpy_io.py:PlainNumpySource"]}
{"id": "C29", "title": "which ndarrays are accepted", "statement": "pack_ndarray raises ObjectNumpyArrayRejection iff the dtype contains objects; otherwise it rejects an array iff the itemsize is not between 1 and 255, or the array is larger than the chunk size and the chunk size is not a multiple of the itemsize (ChunkSizeTypeSizeMismatch), or the chunk size is invalid, or fields of its record type overlap or are out of order (ValueError).", "quantifier": "every array and chunk size", "why_tests_cant": "acceptance is an iff over unbounded parameters", "anchors": ["bloscpack/numpy_io.py:pack_ndarray", "bloscpack/numpy_io.py:PlainNumpySource.__iter__"]}
{"id": "C30", "title": "ndarray chunks tile the buffer on item boundaries", "statement": "The (pointer, item count) pairs handed to the compressor are consecutive, disjoint, aligned to items, inside the array's buffer and cover it exactly; on unpack every byte is written inside the target array and the array is filled exactly.", "quantifier": "every array and chunk size", "why_tests_cant": "pointer arithmetic over unbounded sizes", "anchors": ["bloscpack/numpy_io.py:PlainNumpySource.__iter__", "bloscpack/numpy_io.py:PlainNumpySink.put"]}
{"id": "C31", "title": "in-memory and file sinks agree", "statement": "Packing into a CompressedMemorySink and unpacking from the corresponding CompressedMemorySource yields the same data and metadata as going through a file; packing from a list of chunks gives the same file as packing from a file pointer over the concatenation.", "quantifier": "every input, settings", "why_tests_cant": "all inputs", "anchors": ["bloscpack/memory_io.py:CompressedMemorySink", "bloscpack/memory_io.py:CompressedMemorySource", "bloscpack/memory_io.py:PlainMemorySource", "bloscpack/memory_io.py:PlainMemorySink"]}
{"id": "C32", "title": "max_app_chunks normalisation", "statement": "_handle_max_apps returns a value v with 0 <= v and nchunks+v <= 2^63-1, equal to the requested (or computed) value whenever that fits and to the largest fitting value otherwise, 0 if there are no offsets or nchunks is unknown; negative or non-integer requests are rejected, so header construction in pack never fails because of it.", "quantifier": "every nchunks, request (int, callable, other) and offsets flag", "why_tests_cant": "int64 boundary arithmetic, arbitrary callables", "anchors": ["bloscpack/args.py:_handle_max_apps", "bloscpack/abstract_io.py:pack"]}
{"id": "C33", "title": "argument dictionaries are validated exactly", "statement": "The argument dict checks raise ValueError iff the set of keys differs from the documented set.", "quantifier": "every set of keys", "why_tests_cant": "all dictionaries", "anchors": ["bloscpack/args.py:_check_blosc_args", "bloscpack/args.py:_check_bloscpack_args", "bloscpack/args.py:_check_metadata_arguments"]}
{"id": "C34", "title": "default file names invert each other", "statement": "blpk compress F without output name writes F.blp, and blpk decompress F.blp without output name writes F; decompress refuses inputs without the extension unless told not to check; an explicit output name always wins. (The output must not be the input itself, see C66.)", "quantifier": "every file name", "why_tests_cant": "all strings", "anchors": ["bloscpack/cli.py:process_compression_args", "bloscpack/cli.py:process_decompression_args"]}
{"id": "C35", "title": "no overwriting without --force", "statement": "Without --force, blpk compress and blpk decompress never change the contents of, or remove, any file that existed before, whatever happens (success, failure, corrupt input).", "quantifier": "every file system state, arguments and input contents", "why_tests_cant": "all file system states", "anchors": ["bloscpack/cli.py:check_files", "bloscpack/cli.py:main", "bloscpack/file_io.py:pack_file_to_file", "bloscpack/file_io.py:unpack_file_from_file"]}
{"id": "C36", "title": "command line compress/decompress round trip", "statement": "blpk compress F followed by blpk decompress F.blp G leaves G equal to F and F unchanged.", "quantifier": "every file content, name and options", "why_tests_cant": "all inputs", "anchors": ["bloscpack/cli.py:main", "bloscpack/file_io.py:pack_file_to_file", "bloscpack/file_io.py:unpack_file_from_file"]}
{"id": "C37", "title": "size of a packed file", "statement": "A packed file has exactly 32 + metadata section + 8*(nchunks+max_app_chunks) (with offsets) + sum over chunks of compressed size plus digest size bytes; hence at most 32 + metadata section + 8*(nchunks+max_app_chunks) + size + nchunks*(16+digest size).", "quantifier": "every input and settings", "why_tests_cant": "all inputs", "anchors": ["bloscpack/file_io.py:CompressedFPSink", "bloscpack/abstract_io.py:pack"]}
{"id": "C38", "title": "human readable chunk sizes", "statement": "A size written as an integer n < 2^53 followed by B, K, M, G or T means exactly n * 1, 2^10, 2^20, 2^30, 2^40 bytes; a decimal fraction means the nearest binary64 number of units, rounded towards zero; any other final character is rejected with ValueError. Exactly the texts of decimal numbers (optional sign, digits with an optional point, optional exponent, whitespace around, underscores between digits) followed by a suffix are sizes; infinite ones raise OverflowError, the empty text IndexError, everything else ValueError.", "quantifier": "every text", "why_tests_cant": "all texts", "anchors": ["bloscpack/pretty.py:reverse_pretty"]}
{"id": "C39", "title": "log filtering", "statement": "A message logged at a level is printed iff that level is at or below the current verbosity, one prefixed line per non-empty line; set_level makes the given level current. (The latter is violated: set_level validates but does not set.)", "quantifier": "every message and level", "why_tests_cant": "all messages", "anchors": ["bloscpack/log.py:verbose", "bloscpack/log.py:set_level"]}
{"id": "C40", "title": "arguments objects are not modified", "statement": "API calls do not modify the argument objects passed by the caller. (Violated: metadata_args loses its codec when compression was not beneficial; pack_ndarray sets typesize; append_fp fills in None fields from the file.)", "quantifier": "every call", "why_tests_cant": "aliasing between calls is a history property", "anchors": ["bloscpack/file_io.py:_write_metadata", "bloscpack/numpy_io.py:pack_ndarray", "bloscpack/append.py:append_fp"]}
{"id": "C41", "title": "legacy dtype descriptions", "statement": "Converting the JSON form (tuples turned into lists) of a numpy dtype description without field titles back with _conv restores the description exactly, at any nesting depth and with sub-array shapes.", "quantifier": "every nested description", "why_tests_cant": "unbounded nesting", "anchors": ["bloscpack/numpy_io.py:_conv"]}
{"id": "C42", "title": "JSON metadata round trip", "statement": "loads(dumps(v)) = v for every JSON value made of null, booleans, integers, floats, strings, lists and string-keyed dicts, including all control and non-BMP characters; the dump is pure ASCII so its character count (recorded as meta_size) is its byte count. Strings with an adjacent high+low surrogate pair are the only exception.", "quantifier": "every JSON value", "why_tests_cant": "unbounded nesting and strings", "anchors": ["bloscpack/serializers.py:SERIALIZERS"]}
{"id": "C43", "title": "append verifies the chunk it rewrites", "statement": "append_fp detects corruption of the last chunk before recompressing it. (Violated: the digest is not checked ('TODO check digest'), so a corrupt last chunk gets a fresh valid digest.)", "quantifier": "every corrupted file", "why_tests_cant": "needs corrupt-then-append histories", "anchors": ["bloscpack/append.py:append_fp"]}
{"id": "C44", "title": "appending an empty file", "statement": "append(orig, new) with an empty new file succeeds and changes nothing observable. (Violated: ZeroDivisionError is raised after the data was processed; the data is preserved.)", "quantifier": "every conforming file", "why_tests_cant": "corner case", "anchors": ["bloscpack/append.py:append"]}
{"id": "C45", "title": "format version gate", "statement": "A file whose header is otherwise valid but whose format version is not 3 is rejected with FormatVersionMismatch before any data is output; input that is too short or lacks the magic is rejected with ValueError.", "quantifier": "every byte string", "why_tests_cant": "all inputs", "anchors": ["bloscpack/file_io.py:_read_bloscpack_header"]}
{"id": "C46", "title": "packing is independent of container", "statement": "pack_bytes_to_file, pack_bytes_to_bytes and pack_file_to_file produce identical bytes for identical content and settings, and the unpack functions agree on the result or on the error. (Violated: a metadata section that claims more bytes than there are in front of it is accepted in memory, and raises OSError from a file.)", "quantifier": "every input and settings", "why_tests_cant": "all inputs", "anchors": ["bloscpack/file_io.py:pack_bytes_to_file", "bloscpack/file_io.py:pack_bytes_to_bytes", "bloscpack/file_io.py:pack_file_to_file"]}
{"id": "C47", "title": "checksum digests have their declared size", "statement": "Each checksum's digest has the declared size, so chunk framing is self-consistent; adler32 and crc32 digests are the standard functions in little-endian byte order.", "quantifier": "every checksum and input", "why_tests_cant": "all inputs", "anchors": ["bloscpack/checksums.py:Hash", "bloscpack/checksums.py:zlib_hash"]}
{"id": "C48", "title": "metadata level of uncompressed metadata", "statement": "README: if the metadata is stored uncompressed the meta-level field must be 0. (Violated: the requested level is recorded even when the codec was dropped.)", "quantifier": "every metadata value and arguments", "why_tests_cant": "needs incompressible metadata", "anchors": ["bloscpack/file_io.py:_write_metadata"]}
{"id": "C49", "title": "command line error reporting", "statement": "blpk decompress on a file with a wrong format version or a corrupted chunk prints an error message and exits with code 1. (Violated on Python 3: the handler uses the missing attribute .message and dies with AttributeError.)", "quantifier": "every such file", "why_tests_cant": "error handler never exercised", "anchors": ["bloscpack/cli.py:main"]}
{"id": "C50", "title": "blosc chunk header decoding", "statement": "decode_blosc_header reads the documented fields of any buffer of at least 16 bytes and fails on any shorter one; decode_blosc_flags yields the five documented flags for every flag byte with a known codec and raises KeyError otherwise.", "quantifier": "every buffer and all 256 flag bytes", "why_tests_cant": "all buffers", "anchors": ["bloscpack/headers.py:decode_blosc_header", "bloscpack/headers.py:decode_blosc_flags"]}
{"id": "C51", "title": "append after the metadata was rewritten to None", "statement": "A file whose metadata was successfully rewritten to None still accepts appends: after a successful append_fp it unpacks to the old data followed by the new, and to None. (Violated as soon as the append adds a chunk: append_fp decides by 'metadata is not None' whether there is a metadata section, writes the offsets over it, and the file becomes unreadable.)", "quantifier": "every conforming file, new content and arguments", "why_tests_cant": "needs a rewrite-then-append history; a test would have to think of null metadata", "anchors": ["bloscpack/append.py:append_fp", "bloscpack/append.py:_rewrite_metadata_fp"]}
{"id": "C52", "title": "unknown number of chunks", "statement": "A header may say that the number of chunks is unknown (nchunks = -1). Unpacking such a file either raises or returns all its chunks; it never drops data silently. (Violated: without an offsets section unpacking returns empty data for any content; with one it dies with TypeError.)", "quantifier": "every such header and every content", "why_tests_cant": "all inputs", "anchors": ["bloscpack/headers.py:BloscpackHeader", "bloscpack/file_io.py:unpack_file_from_file", "bloscpack/abstract_io.py:unpack"]}
{"id": "C53", "title": "blpk info only reads", "statement": "blpk info changes no file, whatever it is run on. On a file that is missing or is not a bloscpack file it ends with an error message and exit code 1; on every file made by packing it prints the header and succeeds.", "quantifier": "every command line, every file system contents", "why_tests_cant": "all files, valid and damaged", "anchors": ["bloscpack/cli.py:main", "bloscpack/cli.py:process_decompression_args"]}
{"id": "C54", "title": "blpk append touches one file", "statement": "blpk append O N changes no file but O; with a missing O or N, or an O without the .blp extension (unless the check is switched off), it changes nothing and exits with 1; when it succeeds O unpacks to its old content followed by that of N with the metadata given by -m, if any; when it fails O still unpacks to what it did, except that with -m the data may have been appended (see C55).", "quantifier": "every command line, every file system contents and every packed O", "why_tests_cant": "all inputs and histories", "anchors": ["bloscpack/cli.py:main", "bloscpack/append.py:append"]}
{"id": "C55", "title": "blpk append -m is all or nothing", "statement": "blpk append -m X O N that exits with an error has not appended N to O. (Violated: the data is appended first, so when O was packed without metadata the command dies with NoMetadataFound and exit code 1, and running it again appends N twice. It holds that the command succeeds as a whole when O has a metadata section, X differs from what it holds and fits.)", "quantifier": "every packed O, N and X", "why_tests_cant": "needs a failing second step after a successful first", "anchors": ["bloscpack/cli.py:main", "bloscpack/append.py:append", "bloscpack/append.py:_rewrite_metadata_fp"]}
{"id": "C56", "title": "unpack_ndarray writes only to the new array", "statement": "Unpacking an array from any bytes, valid or hostile, writes no memory outside the new array's buffer, and an array that is returned consists of unpacked data only. (Violated: the length of the data is never compared with the size the metadata announces; longer data is written behind the array, shorter data leaves uninitialised memory in it.)", "quantifier": "every input, every address and every memory content", "why_tests_cant": "a test that corrupts memory may well pass", "anchors": ["bloscpack/numpy_io.py:PlainNumpySink", "bloscpack/numpy_io.py:unpack_ndarray"]}
{"id": "C57", "title": "burst errors are detected", "statement": "A damaged file is never unpacked silently: with the checksum crc32, changing any bits within 32 consecutive bits (so up to four neighbouring bytes) of one chunk's compressed bytes after its 16 byte header makes unpacking raise ChecksumMismatch; with adler32, so does changing any two bytes of it whose distance is not a multiple of 65521.", "quantifier": "every packed file, every chunk and every such damage", "why_tests_cant": "2^32 patterns at every position of every chunk", "anchors": ["bloscpack/checksums.py:CHECKSUMS", "bloscpack/abstract_io.py:unpack"]}
{"id": "C58", "title": "an interrupted metadata rewrite loses no data", "statement": "If the program stops while it rewrites the metadata of a file, even in the middle of a write, the file keeps its length and every byte outside the metadata section. Unpacking it then either raises or returns exactly the packed data, when it stopped between two writes, or anywhere if the metadata section takes up at most half the file.", "quantifier": "every conforming file, new metadata, arguments and every crash point", "why_tests_cant": "all crash points", "anchors": ["bloscpack/append.py:_seek_to_metadata", "bloscpack/append.py:_rewrite_metadata_fp", "bloscpack/file_io.py:_write_metadata", "bloscpack/file_io.py:_read_metadata"]}
{"id": "C59", "title": "unpacking something else than an array", "statement": "unpack_ndarray_from_bytes and unpack_ndarray_from_file on packed data that is not an array raise NotANumpyArray, as documented, and write no memory; what pack_ndarray_* wrote is never rejected that way. (Violated: metadata that is not a dict with a 'container' entry raises KeyError or TypeError instead.)", "quantifier": "every packed data, every metadata", "why_tests_cant": "all JSON values as metadata", "anchors": ["bloscpack/numpy_io.py:PlainNumpySink", "bloscpack/numpy_io.py:unpack_ndarray"]}
{"id": "C60", "title": "a refused packing leaves an existing file alone", "statement": "When pack_file_to_file, pack_bytes_to_file or pack_ndarray_to_file raise because the settings or the array are refused, a file that already has the output name keeps its contents, and no other file changes. (Violated: the output is opened for writing before the settings and the array are checked, so that it is emptied. A bad chunk size, a missing input and an unwritable output are noticed earlier and change nothing.)", "quantifier": "every file system contents, input, settings", "why_tests_cant": "tests look at the exception, not at what was there before", "anchors": ["bloscpack/file_io.py:pack_file_to_file", "bloscpack/file_io.py:pack_bytes_to_file", "bloscpack/numpy_io.py:pack_ndarray_to_file"]}
{"id": "C61", "title": "arrays in files", "statement": "pack_ndarray_to_file writes exactly the bytes pack_ndarray_to_bytes returns, or raises the same exception, and changes no other file; unpack_ndarray_from_file gives back an array with the same dtype, shape and elements (for types without gaps, see C28).", "quantifier": "every array, file name and file system contents", "why_tests_cant": "all inputs", "anchors": ["bloscpack/numpy_io.py:pack_ndarray_to_file", "bloscpack/numpy_io.py:unpack_ndarray_from_file"]}
{"id": "C62", "title": "printed sizes are right", "statement": "The sizes blpk prints use the largest unit (B, K, M, G, T) not exceeding the size, with at most two digits after the point, and differ from the true size by at most half of the last digit; double_pretty_size also contains the exact number of bytes. Given to reverse_pretty (or -z), the printed text is a valid size, within half a hundredth of the unit (and 3 bytes) of the original, and exactly the original whenever two digits are enough to write it.", "quantifier": "every size below 2^53", "why_tests_cant": "all sizes, rounding of floating point division", "anchors": ["bloscpack/pretty.py:pretty_size", "bloscpack/pretty.py:double_pretty_size", "bloscpack/pretty.py:reverse_pretty"]}
{"id": "C63", "title": "headers and settings behave like mappings", "statement": "Header and argument objects are mappings with a fixed set of keys: whatever sequence of item and attribute assignments, update, copy, pop, clear and del is applied to any number of them, an object's keys and their order stay the same; obj[key] gives the value assigned last and KeyError for any other key; keys not assigned keep their values; a copy starts equal and is independent from then on; deleting is refused and changes nothing; two objects are equal exactly if they have the same keys and values.", "quantifier": "every history of operations on any number of objects", "why_tests_cant": "all histories, aliasing between objects", "anchors": ["bloscpack/abstract_objects.py:MutableMappingObject", "bloscpack/args.py:BloscArgs", "bloscpack/headers.py:BloscpackHeader", "bloscpack/headers.py:MetadataHeader"]}
{"id": "C64", "title": "blpk info prints the truth", "statement": "On every conforming file blpk info prints exactly the lines that describe it and nothing else: every field of the header, the positions of the first five chunks, the metadata and every field of its header, and the fields and flags in the header of the first chunk. For a packed file these are the settings it was packed with, and sizes that add up to the length of the data. Different headers are printed differently.", "quantifier": "every conforming file and every packed file", "why_tests_cant": "all files; tests only look at whether the command succeeds", "anchors": ["bloscpack/cli.py:main", "bloscpack/abstract_objects.py:MutableMappingObject", "bloscpack/headers.py:decode_blosc_header", "bloscpack/headers.py:decode_blosc_flags"]}
{"id": "C65", "title": "a failed unpacking leaves an existing file alone", "statement": "When unpack_file_from_file or blpk decompress fail, a file that already has the output name keeps its contents, and no other file changes. (Violated: the output is opened for writing before the input is looked at, so an input that is no bloscpack file empties the output. It holds for a missing input and for an output that cannot be opened, and no other file ever changes.)", "quantifier": "every file system contents and input", "why_tests_cant": "tests look at the exception, not at what was there before", "anchors": ["bloscpack/file_io.py:unpack_file_from_file", "bloscpack/cli.py:main"]}
{"id": "C66", "title": "a file can be its own output", "statement": "pack_file_to_file and unpack_file_from_file called with the same file as input and output either do what was asked for or refuse, but do not destroy the data. (Violated: opening the output empties the file before it is read; packing then succeeds and stores nothing, unpacking raises and leaves an empty file.)", "quantifier": "every file, contents and settings", "why_tests_cant": "all contents; the result may look like success", "anchors": ["bloscpack/file_io.py:pack_file_to_file", "bloscpack/file_io.py:unpack_file_from_file"]}
{"id": "C67", "title": "what is packed is what was read", "statement": "If packing succeeds, unpacking the result gives exactly the bytes the reads of the input returned, in order, even if these are not the bytes announced when packing began, as when another program changes the input file meanwhile: a shorter input gives its contents, a longer one its beginning.", "quantifier": "every input, every change of it between the reads, all settings", "why_tests_cant": "all interleavings with another program", "anchors": ["bloscpack/abstract_io.py:pack", "bloscpack/file_io.py:PlainFPSource", "bloscpack/file_io.py:pack_file_to_file"]}
{"id": "C68", "title": "verbosity changes what is printed, nothing else", "statement": "`blpk -v` and `blpk -d` end with the same exit code and leave the same files as `blpk` without them, and print the same lines in the same order; the additional messages come before these lines, and `done` after success.", "quantifier": "every command, option, file system and whatever the messages say", "why_tests_cant": "all combinations of messages and outcomes", "anchors": ["bloscpack/cli.py:main", "bloscpack/log.py:verbose", "bloscpack/log.py:debug"]}
{"id": "C69", "title": "the chunk size option", "statement": "`blpk compress -z V` uses the chunk size V says: `max`, a number of bytes, or a number with a suffix B, K, M, G or T. Any other V is refused with an error message and exit code 1, and no file is changed. (Violated for the empty value, for infinities, for zero and for sizes that are too large: these end with a traceback.)", "quantifier": "every text given as V", "why_tests_cant": "all texts", "anchors": ["bloscpack/cli.py:create_parser", "bloscpack/pretty.py:reverse_pretty"]}
{"id": "C70", "title": "the order of the options does not matter", "statement": "Two command lines that differ only in the order of their options, with the file names in the same order and the values of each option in the same order, are accepted or refused together, and if accepted the tool does the same.", "quantifier": "every command line and every reordering", "why_tests_cant": "all permutations", "anchors": ["bloscpack/cli.py:create_parser", "bloscpack/cli.py:main"]}
{"id": "C71", "title": "the options are the settings of the file", "statement": "If `blpk compress` succeeds, the output is exactly what packing the input in memory gives with the value of the last occurrence of each option, and the documented default for options not given.", "quantifier": "every accepted command line, input and file system", "why_tests_cant": "all combinations of options", "anchors": ["bloscpack/cli.py:create_parser", "bloscpack/cli.py:process_compression_args", "bloscpack/cli.py:main"]}
{"id": "C72", "title": "which command lines are accepted", "statement": "A command line is accepted if each part is an option of the subcommand with a possible value or a file name, the number of file names is right, and -v and -d are not both given; then the tool acts on exactly the settings it means. Any other command line changes no file and ends with exit code 2, with 0 after a help text, or with 1 after an error message (or traceback) about the number of threads or the chunk size.", "quantifier": "every command line and file system", "why_tests_cant": "all command lines", "anchors": ["bloscpack/cli.py:create_parser", "bloscpack/cli.py:main"]}
{"id": "C73", "title": "blpk changes its output and nothing else", "statement": "Whatever the command line, the files and the outcome, blpk changes at most one file: the output of compress and decompress (the input name with .blp added or removed if no output is named) and the archive given to append. info changes nothing.", "quantifier": "every command line, accepted or not, every file system", "why_tests_cant": "all command lines and failures", "anchors": ["bloscpack/cli.py:main", "bloscpack/cli.py:process_compression_args", "bloscpack/cli.py:process_decompression_args"]}
{"id": "C74", "title": "an archive survives any session of command lines", "statement": "After a successful blpk compress, with any options, any number of blpk commands follow, among them appends to the archive, successful or not, with or without metadata and with any options; other programs may change other files in between. The archive then unpacks to the original contents followed by what the successful appends added (and possibly what failed appends with -m added, see C55), and to the metadata last stored. blpk decompress writes exactly that.", "quantifier": "every session, command line, option and file system", "why_tests_cant": "all histories of commands", "anchors": ["bloscpack/cli.py:main", "bloscpack/append.py:append"]}
{"id": "C75", "title": "the header's typesize is that of the chunks", "statement": "The typesize in the header of a file is the typesize recorded in every one of its chunks. (Violated: append with another typesize leaves chunks of that typesize behind a header with the old one, and blpk append without -t always uses 8 instead of the file's typesize. It holds over any history in which no other typesize is asked for.)", "quantifier": "every packed file, history and command line", "why_tests_cant": "all histories", "anchors": ["bloscpack/append.py:append_fp", "bloscpack/cli.py:main", "bloscpack/cli.py:create_parser"]}
{"id": "C76", "title": "the headers hold the settings, and the defaults are the documented ones", "statement": "The headers of a packed file are what was asked for: format version, checksum, typesize, offsets flag, chunk size, number of chunks and of append chunks, and the metadata header's checksum, codec, level and room. Packing with no settings gives offsets, adler32, typesize 8, 1 MiB chunks, blosclz at level 7 with shuffling, room for ten times as many chunks, and metadata as JSON with adler32, zlib level 6 and ten times the room.", "quantifier": "every data, metadata and settings packing accepts", "why_tests_cant": "all sizes and settings", "anchors": ["bloscpack/file_io.py:pack_bytes_to_bytes", "bloscpack/abstract_io.py:pack", "bloscpack/defaults.py:DEFAULT_CHUNK_SIZE", "bloscpack/args.py:BloscpackArgs"]}
{"id": "C77", "title": "what is appended is what was read", "statement": "If append succeeds, the file unpacks to its previous data followed by exactly what the reads of the new file delivered, in order, whatever they delivered: also if the new file is changed meanwhile, is shorter than announced, is read from a position other than its beginning, or is the very file that is appended to. The header counts the announced size.", "quantifier": "every conforming file, announced size, setting and sequence of read results", "why_tests_cant": "all schedules of another writer to the new file", "anchors": ["bloscpack/append.py:append_fp"]}
{"id": "C78", "title": "an interrupted append harms at most the last chunk", "statement": "If an append is interrupted, even in the middle of a write (but for the 32 bytes of the header, which are written at once), the file still delivers the data of every chunk but the last unharmed, and if it unpacks it has the old metadata. Interrupted anywhere, also within the header, it leaves the metadata section and every chunk but the last with its digest byte for byte where they were.", "quantifier": "every conforming file, appended data and setting, every crash point, also between the bytes of a write", "why_tests_cant": "all crash points", "anchors": ["bloscpack/append.py:append_fp"]}
{"id": "C79", "title": "which 32 bytes are a metadata header", "statement": "A metadata header is accepted exactly if it is 32 bytes long, its checksum and codec numbers exist and its level is at most 9; it then means what the documented layout says. Anything else is refused with an error, never read as something else.", "quantifier": "every byte string", "why_tests_cant": "2^256 headers", "anchors": ["bloscpack/headers.py:MetadataHeader", "bloscpack/headers.py:decode_metadata_options"]}
{"id": "C80", "title": "a wrong number of chunks is noticed", "statement": "If packing is told a number of chunks other than the number of chunks its source delivers, then packing or unpacking the result is an error: no chunk is lost or made up silently. A memory sink with a given number of slots refuses more chunks and leaves slots it does not need empty. (Violated: more chunks than announced are packed into a file without offsets without complaint, and unpacking it silently leaves them out.)", "quantifier": "every list of chunks, announced number, settings and metadata, into memory and into files", "why_tests_cant": "all lists and numbers", "anchors": ["bloscpack/abstract_io.py:pack", "bloscpack/abstract_io.py:unpack", "bloscpack/memory_io.py:CompressedMemorySink", "bloscpack/memory_io.py:PlainMemorySink", "bloscpack/file_io.py:CompressedFPSink"]}
{"id": "C81", "title": "what unpacking accepts", "statement": "Unpacking succeeds on exactly the byte strings that are archives: header, metadata section if announced, offsets if announced, and as many chunks as announced, each with its digest or, at the very end, without; and it then gives exactly the chunks' data and the metadata. The same for files on disk and for unpacking into a file.", "quantifier": "every byte string, result and metadata", "why_tests_cant": "all byte strings", "anchors": ["bloscpack/file_io.py:unpack_bytes_from_bytes", "bloscpack/file_io.py:unpack_bytes_from_file", "bloscpack/file_io.py:unpack_file_from_file", "bloscpack/file_io.py:_read_beginning", "bloscpack/file_io.py:_read_compressed_chunk_fp", "bloscpack/abstract_io.py:unpack"]}
{"id": "C82", "title": "bytes behind an archive do not matter", "statement": "Appending bytes to a file that unpacks does not change what it unpacks to. (Violated: a file that lost its last digest unpacks, and no longer does once other bytes follow. Holds for everything packing writes, and for any other accepted file unless it ends in a chunk without digest.)", "quantifier": "every accepted byte string and every continuation", "why_tests_cant": "all continuations", "anchors": ["bloscpack/file_io.py:unpack_bytes_from_bytes", "bloscpack/file_io.py:_read_compressed_chunk_fp", "bloscpack/abstract_io.py:unpack"]}
{"id": "C83", "title": "the announced number of chunks cannot make the reader work for nothing", "statement": "A file that unpacks has at least 16 bytes for each chunk it announces. A file without metadata and offsets that announces more chunks than it has room for is refused, with the same exception and after the same output whatever larger number it announces.", "quantifier": "every byte string, every announced number up to 2^63-1", "why_tests_cant": "all announced numbers", "anchors": ["bloscpack/file_io.py:unpack_bytes_from_bytes", "bloscpack/file_io.py:unpack_file_from_file", "bloscpack/abstract_io.py:unpack"]}
{"id": "C84", "title": "which exceptions reach the caller", "statement": "Whatever bytes a file holds, unpacking it, appending to it or rewriting its metadata either succeeds or raises one of a short list of exceptions of bloscpack itself, or an exception that blosc, zlib or json raised. A byte string that does not begin with a header is refused with ValueError, or with IndexError exactly if it is long enough, the magic string and the options are right and the checksum number does not exist.", "quantifier": "every byte string, appended data, metadata and settings", "why_tests_cant": "all byte strings", "anchors": ["bloscpack/file_io.py:unpack_bytes_from_bytes", "bloscpack/file_io.py:unpack_bytes_from_file", "bloscpack/append.py:append", "bloscpack/append.py:_rewrite_metadata_fp", "bloscpack/headers.py:BloscpackHeader"]}
{"id": "C85", "title": "appending to archives written by other programs", "statement": "Appending to any file that unpacks and has an offsets section, also one by another program whose header leaves chunk size or last chunk size unknown (-1) as the format allows: if it succeeds, the file unpacks to its previous data followed by the new data, and the header gives the true size of the last chunk or says it is unknown; otherwise the file is unchanged. (Violated: an unknown last chunk size becomes a wrong one; a last chunk size that is too large can make the file unreadable; a wrong last offset makes the appended data disappear; and a last chunk size so large that the sum cannot be written makes appending fail after the last chunk was replaced.)", "quantifier": "every file that unpacks, every appended data and setting", "why_tests_cant": "all files of other writers", "anchors": ["bloscpack/append.py:append_fp", "bloscpack/file_io.py:_read_beginning"]}
{"id": "C86", "title": "reading an archive while it is appended to", "statement": "A process that unpacks an archive while another one appends to it gets the old data, or the old and the new data, or an exception. (Violated: it can get, without an exception, the old data and only a part of the new. It always gets the data of all chunks but the last unharmed, and everything once it sees the new header.)", "quantifier": "every conforming file, appended data and setting, every assignment of moments to the bytes the reader fetches", "why_tests_cant": "all interleavings of a reader and a writer", "anchors": ["bloscpack/append.py:append_fp", "bloscpack/file_io.py:unpack_bytes_from_file", "bloscpack/file_io.py:unpack_file_from_file", "bloscpack/file_io.py:_read_beginning"]}
{"id": "C87", "title": "two appends at the same time", "statement": "If two processes append to an archive and both succeed, the archive unpacks to its previous data and the data of both. (Violated: if one appends after the other has read the archive and before it writes, its data disappear although both succeed. One after the other it holds; and no interleaving harms more than the last chunk.)", "quantifier": "every conforming file, both appended data and settings, every interleaving of their writes", "why_tests_cant": "all schedules of two writers", "anchors": ["bloscpack/append.py:append", "bloscpack/append.py:append_fp"]}
{"id": "C88", "title": "appending while the metadata is rewritten", "statement": "If one process appends to an archive and another one rewrites its metadata at the same time, and both succeed, the archive unpacks to all of the data, old and new, and to the new metadata, however their writes are interleaved.", "quantifier": "every conforming file, appended data, metadata and settings, every interleaving of the writes", "why_tests_cant": "all schedules of two writers", "anchors": ["bloscpack/append.py:append_fp", "bloscpack/append.py:_seek_to_metadata", "bloscpack/append.py:_rewrite_metadata_fp"]}
{"id": "C89", "title": "reading an archive while its metadata is rewritten", "statement": "A process that unpacks an archive while another one rewrites its metadata either gets an exception before any data are written, or exactly the data of the archive.", "quantifier": "every conforming file, metadata and settings, every assignment of moments to the bytes the reader fetches", "why_tests_cant": "all interleavings of a reader and a writer", "anchors": ["bloscpack/append.py:_seek_to_metadata", "bloscpack/append.py:_rewrite_metadata_fp", "bloscpack/file_io.py:_read_metadata", "bloscpack/file_io.py:unpack_file_from_file"]}
{"id": "C90", "title": "room for appended chunks", "statement": "Whatever number of appendable chunks the settings and the header accept (0 to 2^63-1 together with the chunks), packing works with it if it works without room for appends. (Violated: from 2^60 on the table of offsets is larger than any byte string can be. Packing raises OverflowError after the header was written, and leaves a file that cannot be read. It holds for numbers below 2^59.)", "quantifier": "every data, metadata, settings, number", "why_tests_cant": "nobody tests with such numbers; the header field allows them", "anchors": ["bloscpack/args.py:_handle_max_apps", "bloscpack/file_io.py:CompressedFPSink", "bloscpack/abstract_io.py:pack"]}
{"id": "C91", "title": "only verified bytes are decompressed or parsed", "statement": "Whatever the file, unpacking hands bytes of it to blosc only if they are followed by their digest, by the checksum the header names (or by nothing at all, at the end of the file), and to zlib and json only if they are the metadata with the right digest. Changed bytes never reach these libraries first.", "quantifier": "every byte string, every behaviour of blosc, zlib and json", "why_tests_cant": "one would have to observe the libraries for every malformed file", "anchors": ["bloscpack/file_io.py:_read_compressed_chunk_fp", "bloscpack/file_io.py:_read_metadata", "bloscpack/file_io.py:unpack_bytes_from_file", "bloscpack/file_io.py:unpack_file_from_file", "bloscpack/file_io.py:unpack_bytes_from_bytes"]}
{"id": "C92", "title": "blosc compresses one chunk at a time", "statement": "Packing asks blosc to compress only the consecutive pieces of the data of the requested chunk size, never more than that at once and never more than blosc can take, with the settings of the caller. Appending to a file does the same with the old and the new data taken together, and the chunk size of the file.", "quantifier": "every data, settings, conforming file, appended data, every behaviour of blosc", "why_tests_cant": "one would have to observe blosc for every size and chunk size", "anchors": ["bloscpack/abstract_io.py:pack", "bloscpack/file_io.py:PlainFPSource", "bloscpack/append.py:append_fp", "bloscpack/args.py:calculate_nchunks"]}
{"id": "C93", "title": "unpacking arrays accepts and refuses exactly", "statement": "Unpacking an array from bytes or a file succeeds exactly if unpacking its bytes does and the metadata describe an array: container 'numpy', a dtype numpy knows, a shape, and an order 'C' or 'F'. Then the data stand in memory from where the array begins, no other memory was changed, and the array shows them. Otherwise it raises the exception that unpacking the bytes raises, or, with nothing written, one of NotANumpyArray, KeyError, TypeError, ValueError and IndexError. If it fails half-way, memory holds what unpacking to a file would have left in that file.", "quantifier": "every byte string, every behaviour of blosc, zlib, json and of numpy's dtypes, every memory", "why_tests_cant": "all byte strings and metadata", "anchors": ["bloscpack/numpy_io.py:unpack_ndarray", "bloscpack/numpy_io.py:PlainNumpySink", "bloscpack/numpy_io.py:unpack_ndarray_from_bytes", "bloscpack/numpy_io.py:unpack_ndarray_from_file"]}
{"id": "C94", "title": "archives in memory are changed like files", "statement": "Appending to an archive in a BytesIO, and rewriting its metadata, has the same result or exception and leaves the same contents as with a file with the same contents, whatever the contents, unless the file raises OSError (BytesIO does not mind seeks to before the beginning). Where the appended data come from, a file or a BytesIO, at its beginning or not, makes no difference.", "quantifier": "every contents, appended data, metadata and settings", "why_tests_cant": "all contents", "anchors": ["bloscpack/append.py:append_fp", "bloscpack/append.py:_rewrite_metadata_fp"]}
{"id": "C95", "title": "appending again with the same file object", "statement": "After append_fp succeeded, calling it again with the same file object appends again. (Violated: it does not go back to the beginning of the file, takes for a header what comes after the bytes it wrote last, raises ValueError and appends nothing, whenever room for chunks is left. With seek(0) in between it does the same as with a file just opened, so both contents are appended.)", "quantifier": "every conforming file, every appended contents and settings", "why_tests_cant": "all histories of a file object", "anchors": ["bloscpack/append.py:append_fp", "bloscpack/file_io.py:_read_bloscpack_header"]}
{"id": "C96", "title": "the dtype in an archive is a Python literal", "statement": "What packing an array stores as its dtype is a text that spells numpy's description of the dtype by the rules of the Python language, whatever characters field names contain. Unpacking understands every text that spells a description by these rules, whichever quotes, escapes, blanks, line ends, brackets and trailing commas it contains, and gives the array of that dtype. A text has one meaning at most.", "quantifier": "every array, every text, every description of strings, integers, tuples and lists", "why_tests_cant": "all texts and all nestings", "anchors": ["bloscpack/numpy_io.py:_ndarray_meta", "bloscpack/numpy_io.py:PlainNumpySink", "bloscpack/numpy_io.py:unpack_ndarray_from_bytes", "bloscpack/numpy_io.py:pack_ndarray_to_bytes"]}
{"id": "C97", "title": "an archive does not show how it came about", "statement": "An archive that was packed, appended to any number of times with the same compression settings and whose metadata were rewritten any number of times is, byte for byte, the archive that packing all the data at once makes, with the same chunk size, the room for appends that is left, the last metadata and the settings for metadata that the rewrites amount to. Bytes of earlier versions may be left over at the end, but not if compressing more data never gives less compressed data. So it does not matter how data are split over appends, nor what metadata were written in between.", "quantifier": "every packing, every history of appends and rewrites, successful or not, every split of the data", "why_tests_cant": "all histories and all ways to split data", "anchors": ["bloscpack/append.py:append_fp", "bloscpack/append.py:_rewrite_metadata_fp", "bloscpack/append.py:_recreate_metadata", "bloscpack/abstract_io.py:pack", "bloscpack/file_io.py:pack_bytes_to_bytes"]}
{"id": "C98", "title": "metadata in an archive are JSON", "statement": "What is written for metadata is a JSON text (RFC 8259) that spells them, in ASCII. Reading understands every JSON text, in UTF-8, however it is spelled - white space, escapes that need not be, pairs of escaped surrogates, keys given twice, of which the last value counts, numbers with a fraction or an exponent, which become the nearest float (of two the one with the even last bit) - and besides the names NaN and Infinity, and refuses everything else with ValueError or JSONDecodeError. A text has one meaning at most. Metadata another program adds to an archive by the description of the format are returned with the data.", "quantifier": "every byte string, every object of null, booleans, integers, floats, strings, lists and dicts", "why_tests_cant": "all texts and all nestings", "anchors": ["bloscpack/serializers.py:SERIALIZERS", "bloscpack/file_io.py:_read_metadata", "bloscpack/file_io.py:_write_metadata", "bloscpack/file_io.py:unpack_bytes_from_bytes"]}
{"id": "C99", "title": "why packing is refused", "statement": "Packing (bytes, a file, an array) raises exactly the exception of the first of these reasons that applies, and returns if none does: the array contains objects or its type has no description; the chunk size is neither a number nor a text, cannot be read, or is out of range (only if there is something to cut); max_app_chunks is of a wrong type, negative or too large (only with offsets); the checksum is unknown; the typesize is not between 0 and 255; and, if there are metadata: the serializer is unknown, the serializer raises, the codec is unknown, the codec raises, max_meta_size is of a wrong type, the stored form does not fit, the checksum is unknown, the level or a size does not fit its field; then, for an array: the item size is zero, or does not divide the chunk size; finally blosc raises, for the first chunk it raises for.", "quantifier": "every input below 2^50 bytes, every array, every combination of settings (with room for less than 2^59 chunks asked for), every behaviour of blosc, zlib and the serializer on bad arguments", "why_tests_cant": "all combinations of wrong arguments, whose precedence is observable", "anchors": ["bloscpack/file_io.py:pack_bytes_to_bytes", "bloscpack/file_io.py:pack_file_to_file", "bloscpack/file_io.py:_write_metadata", "bloscpack/abstract_io.py:pack", "bloscpack/args.py:calculate_nchunks", "bloscpack/args.py:_handle_max_apps", "bloscpack/headers.py:BloscpackHeader", "bloscpack/headers.py:MetadataHeader", "bloscpack/numpy_io.py:pack_ndarray"]}
{"id": "C100", "title": "why appending and rewriting metadata are refused", "statement": "append_fp to an archive raises exactly the exception of the first of these reasons that applies, and returns if none does: the archive has no offsets; it was packed from nothing and something is to be appended; old and new data together need more chunks than there are and are reserved; blosc refuses, with the settings given and filled in, what the last chunk is to be filled up to. append adds to these ZeroDivisionError for nothing appended. Rewriting the metadata likewise: there is no metadata section; the metadata are already there; the serializer given is unknown, the checksum given is unknown, or its digests have another size than the old ones, the codec given is unknown, the level given is not between 0 and 9; or one of the reasons to refuse metadata when packing, with the settings of the section where none are given and the room that it has.", "quantifier": "every conforming archive, appended data, metadata and settings", "why_tests_cant": "all archives and all combinations of wrong arguments, whose precedence is observable", "anchors": ["bloscpack/append.py:append_fp", "bloscpack/append.py:append", "bloscpack/append.py:_rewrite_metadata_fp", "bloscpack/append.py:_recreate_metadata", "bloscpack/append.py:_seek_to_metadata"]}
{"id": "C101", "title": "why unpacking is refused", "statement": "Unpacking a byte string raises exactly the exception of the first of these reasons that applies, and returns if none does: there is no header (IndexError if only the number of its checksum is too large, else ValueError), or one of another version of the format; the metadata section is cut short, names an unknown checksum, codec or level, leads to before the beginning of the file, has the wrong digest, is refused by zlib, is not of the format JSON, or is refused by the parser; the offsets of an unknown number of chunks are to be read, or take more than 2^63 bytes, or are cut short; and, for the chunks one after the other, less than four (IndexError) or sixteen bytes are left, the digest is wrong, or blosc refuses. The output file then holds exactly the contents of the chunks before the first bad one.", "quantifier": "every byte string, every behaviour of blosc, zlib and json", "why_tests_cant": "all malformed byte strings", "anchors": ["bloscpack/file_io.py:unpack_bytes_from_bytes", "bloscpack/file_io.py:unpack_bytes_from_file", "bloscpack/file_io.py:unpack_file_from_file", "bloscpack/file_io.py:_read_beginning", "bloscpack/file_io.py:_read_bloscpack_header", "bloscpack/file_io.py:_read_metadata", "bloscpack/file_io.py:_read_offsets", "bloscpack/file_io.py:_read_compressed_chunk_fp"]}
{"id": "C102", "title": "a disk that fails", "statement": "If a read, a write, a seek or the close of a file raises OSError in the middle of packing, unpacking, appending or rewriting metadata, the operation raises OSError; it never reports success. What is on the disk, of which the last bytes written may be missing since Python buffers them, is as after an interruption: a packed file unpacks to all of its input or is refused; an archive appended to has its metadata and every chunk but the last where they were, and unpacks to the old data and the beginning of the new ones or is refused, if no write was torn; a rewrite of the metadata has changed nothing outside of them; an unpacked file is the beginning of the data. If nothing fails, the outcome is the same as ever.", "quantifier": "every input, archive and settings, every sequence of failures, every number of bytes that have arrived when an operation fails", "why_tests_cant": "all points of failure and all states of the buffers", "anchors": ["bloscpack/file_io.py:pack_file_to_file", "bloscpack/file_io.py:pack_bytes_to_file", "bloscpack/file_io.py:unpack_file_from_file", "bloscpack/abstract_io.py:pack", "bloscpack/abstract_io.py:unpack", "bloscpack/append.py:append", "bloscpack/append.py:append_fp", "bloscpack/append.py:_rewrite_metadata_fp"]}
{"id": "C103", "title": "an interrupted append can be repeated", "statement": "If an append was interrupted between two writes, appending the same data again leaves an archive with the previous data followed by the new ones, once. (Violated: if the last chunk had been filled up but the header not written, what had filled up the last chunk comes twice; if the header had been written but not the offsets, the archive has all the new data, but appending to it raises OSError for ever. It holds if nothing had been written. In any case appending again, the same or something else, keeps the previous data and metadata, adds all of its data, and keeps of the interrupted append nothing, what fits into the last chunk, or everything; and if it fails it does not touch the archive.)", "quantifier": "every conforming archive, appended data and settings, every point of interruption between two writes, every data appended afterwards", "why_tests_cant": "all points of interruption and all histories after them", "anchors": ["bloscpack/append.py:append_fp", "bloscpack/append.py:append"]}
{"id": "C104", "title": "an interrupted rewrite of the metadata can be repeated", "statement": "If rewriting the metadata of an archive was interrupted between two writes, rewriting them again, with the same or other metadata, leaves an archive with the same data and the metadata of the last rewrite. (Violated: rewriting first reads the old metadata, so if it was interrupted after the metadata and before their digest, unpacking, rewriting and appending raise ChecksumMismatch for ever, although all the data are intact. A repeated rewrite that succeeds does what it should; one that fails does not touch the archive.)", "quantifier": "every conforming archive, new metadata and settings, every point of interruption between two writes, every metadata written afterwards", "why_tests_cant": "all points of interruption and all histories after them", "anchors": ["bloscpack/append.py:_rewrite_metadata_fp", "bloscpack/append.py:rewrite_metadata"]}
{"id": "C105", "title": "replacing an archive is atomic", "statement": "Packing over an existing archive, at any point at which it may be interrupted, leaves the old archive or the new one, and another process that reads the archive meanwhile gets the old data or the new data or an exception. (Violated twice: the old archive is emptied before the first byte of the new one is written, so there is a point at which both are lost; and a reader during a replacement by data of the same length whose chunks compress to the same sizes gets leading chunks of the old data followed by the new data, without an exception, whatever the checksum. An interrupted replacement is never mistaken for anything else: unpacking raises, or gives what it gave before, or the new data.)", "quantifier": "every old content, new data, arguments, every crash point and every reader's schedule", "why_tests_cant": "all crash points and all interleavings", "anchors": ["bloscpack/file_io.py:pack_bytes_to_file", "bloscpack/file_io.py:pack_file_to_file", "bloscpack/file_io.py:unpack_file_from_file"]}
{"id": "C106", "title": "reading an archive while it is being packed", "statement": "A process that unpacks an archive while another one is packing it gets an exception, or exactly the data and the metadata; never a part of the data, or other data, without an exception.", "quantifier": "every data, arguments and outcome of packing, every schedule of the reader's calls among the writes, which may be torn", "why_tests_cant": "all interleavings of the calls of read with the writes", "anchors": ["bloscpack/file_io.py:pack_bytes_to_file", "bloscpack/file_io.py:pack_file_to_file", "bloscpack/file_io.py:unpack_file_from_file", "bloscpack/abstract_io.py:unpack"]}
{"id": "C107", "title": "arrays survive interruptions and failing disks", "statement": "When packing an array to a file is interrupted at any point, or an operation on the disk fails, reading the file back as an array raises or gives exactly the array that was being packed: its dtype, shape and elements. A disk that fails makes packing and reading raise OSError; no half-filled array is returned, and no memory outside the new array is touched.", "quantifier": "every array of whatever layout, all arguments, every crash point including the middle of a write, every sequence of failing operations", "why_tests_cant": "all crash points and failure schedules of all arrays", "anchors": ["bloscpack/numpy_io.py:pack_ndarray_to_file", "bloscpack/numpy_io.py:pack_ndarray", "bloscpack/numpy_io.py:unpack_ndarray_from_file", "bloscpack/numpy_io.py:unpack_ndarray", "bloscpack/numpy_io.py:PlainNumpySource", "bloscpack/numpy_io.py:PlainNumpySink"]}
{"id": "C108", "title": "an array that is read while it is being packed", "statement": "A process that reads an array from a file while another process is packing an array to that file, starting at any time, gets an exception or exactly the array that is being packed: its dtype, shape and elements. It never gets an array with elements that are not there yet.", "quantifier": "every array of whatever layout, all arguments, every interleaving of the reader's calls with the writer's writes, including the middle of a write and bytes from different points in time", "why_tests_cant": "all interleavings of two processes", "anchors": ["bloscpack/numpy_io.py:pack_ndarray_to_file", "bloscpack/numpy_io.py:unpack_ndarray_from_file", "bloscpack/numpy_io.py:unpack_ndarray", "bloscpack/numpy_io.py:_ndarray_meta", "bloscpack/file_io.py:_read_beginning"]}
{"id": "C109", "title": "packing the same data several times at the same time", "statement": "When several processes pack the same data with the same settings to the same file at the same time, and all of them finish, the file is the one that a single process writes, and reading it gives the data (or the array) and the metadata. It does not matter when each of them opens the file, which empties it, and how their writes are mixed.", "quantifier": "all data, arrays and settings, any number of processes, every schedule of opening and of writing single bytes", "why_tests_cant": "all schedules of any number of processes", "anchors": ["bloscpack/file_io.py:pack_file_to_file", "bloscpack/file_io.py:pack_bytes_to_file", "bloscpack/file_io.py:CompressedFPSink", "bloscpack/numpy_io.py:pack_ndarray_to_file", "bloscpack/abstract_io.py:pack"]}
{"id": "C110", "title": "rewriting the metadata several times at the same time", "statement": "When any number of processes rewrite the metadata of one archive at the same time, all having read it before any of them writes, then whatever part of their writes has been done and in whatever order: the file has its old length, nothing in front of the metadata section and nothing behind it has changed, and unpacking the archive either raises an exception before any data come out, or gives exactly the data. The same holds for unpacking meanwhile, and, with the appended data, if another process appends to the archive meanwhile.", "quantifier": "all archives, all new metadata and settings, any number of processes, any selection and order of their writes", "why_tests_cant": "all schedules of any number of processes", "anchors": ["bloscpack/append.py:rewrite_metadata", "bloscpack/append.py:_rewrite_metadata_fp", "bloscpack/file_io.py:_read_metadata", "bloscpack/abstract_io.py:unpack"]}
{"id": "C111", "title": "no overwriting without --force while other programs run", "statement": "Without --force, blpk compress and blpk decompress overwrite no file that another program has made, even if it is made while blpk is running. (What holds is that a file which was there before, and which nobody else changes, keeps its contents.)", "quantifier": "all command lines, files, and all changes that other programs make between the steps of blpk", "why_tests_cant": "all changes by other programs at any step", "anchors": ["bloscpack/cli.py:check_files", "bloscpack/cli.py:main", "bloscpack/cli.py:process_metadata_args", "bloscpack/file_io.py:pack_file_to_file", "bloscpack/file_io.py:unpack_file_from_file"]}
{"id": "C112", "title": "several processes that pack different data to one file", "statement": "If several processes pack different data to the same file at the same time, the file holds the archive of one of them afterwards, or reading it raises an exception. (What holds is that every byte of it is the byte at this place of one of the archives, or zero behind the end of the archive of the process that was the last to open the file; and that a process which opens the file when the others are done leaves its archive.)", "quantifier": "all numbers of processes, data, settings, and all interleavings of their opening and writing, byte by byte", "why_tests_cant": "all interleavings of any number of processes", "anchors": ["bloscpack/file_io.py:pack_file_to_file", "bloscpack/file_io.py:pack_bytes_to_file", "bloscpack/file_io.py:CompressedFPSink"]}
{"id": "C113", "title": "how sources and sinks are used", "statement": "pack calls the methods of any sink in this order: configure, write_bloscpack_header, write_metadata if there are metadata, init_offsets, put for the compressed chunks of the source in their order with the numbers 0, 1, 2, ..., finalize. unpack gives any sink the chunks of any source in their order, each of them after its digest was compared. The first exception, wherever it comes from, ends both and is raised: no method is called after it, finalize is not called, and a chunk with a wrong digest is not given to the sink.", "quantifier": "all sources and sinks, also those a user has written, all their states, all settings", "why_tests_cant": "all sources and sinks, and all points at which one of them can fail", "anchors": ["bloscpack/abstract_io.py:pack", "bloscpack/abstract_io.py:unpack", "bloscpack/abstract_io.py:PlainSource", "bloscpack/abstract_io.py:CompressedSink", "bloscpack/abstract_io.py:CompressedSource", "bloscpack/abstract_io.py:PlainSink"]}
{"id": "C114", "title": "headers print as Python", "statement": "repr of a header or settings object whose values are integers, booleans, strings and bytes is Python: a call of its class with every attribute and its value as keyword argument, in the order of the attributes, so that evaluating it recreates the object. In particular every byte of magic_format and user_codec can be read off, and the text is printable ASCII.", "quantifier": "all objects and values, all byte strings", "why_tests_cant": "all values, all byte strings", "anchors": ["bloscpack/abstract_objects.py:MutableMappingObject", "bloscpack/headers.py:BloscpackHeader", "bloscpack/headers.py:MetadataHeader"]}
{"id": "C115", "title": "an archive does not show how an array lies in memory", "statement": "A packed array is stored as its elements one after the other, in C order, or in Fortran order if numpy.isfortran says so, whatever its strides (views, reversed, transposed, broadcast). Two arrays with the same dtype, shape and elements, both or neither Fortran, give the same archive byte for byte, or the same exception, wherever and however they lie in memory. So an array that is unpacked and packed again with the same settings gives the same archive.", "quantifier": "all arrays, strides, addresses, memory contents and settings", "why_tests_cant": "all strides and memory layouts", "anchors": ["bloscpack/numpy_io.py:PlainNumpySource", "bloscpack/numpy_io.py:pack_ndarray", "bloscpack/numpy_io.py:pack_ndarray_to_bytes", "bloscpack/numpy_io.py:_ndarray_meta"]}
{"id": "C116", "title": "arrays changed while they are packed", "statement": "If other threads change the elements of an array while it is packed and packing returns, the archive is valid and unpacks to an array of the same dtype and shape, in which each element is as it was when its chunk was compressed: no element is half old and half new, and no element is older than one stored before it. An array that is neither C nor Fortran contiguous is copied before, and its archive shows none of the changes.", "quantifier": "all arrays, settings, and contents of memory at all times", "why_tests_cant": "all schedules of other threads", "anchors": ["bloscpack/numpy_io.py:PlainNumpySource", "bloscpack/numpy_io.py:pack_ndarray", "bloscpack/numpy_io.py:_compress_chunk_ptr", "bloscpack/abstract_io.py:pack"]}
{"id": "C117", "title": "archives one behind the other in one file object", "statement": "pack and unpack can be used several times on one file object. Unpacking begins where the file object is, gives the archive that begins there, and leaves the file object at its end, so archives that lie one behind the other are unpacked in order. Packing at the end of a file adds exactly the archive that the same packing gives on its own and changes nothing in the file. (Violated with offsets, the default: they go to the beginning of the file, over what is there, and the file object is left inside the archive.)", "quantifier": "all lists of packings, all contents of the file before and behind them", "why_tests_cant": "all histories of a file object", "anchors": ["bloscpack/abstract_io.py:pack", "bloscpack/abstract_io.py:unpack", "bloscpack/file_io.py:CompressedFPSink", "bloscpack/file_io.py:CompressedFPSource", "bloscpack/file_io.py:_read_beginning"]}
{"id": "C118", "title": "a sink that was used before", "statement": "A sink can be used again after its file object was set back to the beginning and emptied, for instance to try again after a failure: packing to it gives the same archive as packing to a new sink, whatever it was used for before and whether that returned or failed. (Violated: a sink adds up the lengths of all metadata it was ever given, so packing with offsets, the default, to a sink that was given metadata before writes the offsets to a wrong place, over the chunks.)", "quantifier": "all histories of uses of a sink and all packings after them", "why_tests_cant": "all histories", "anchors": ["bloscpack/file_io.py:CompressedFPSink", "bloscpack/abstract_io.py:pack", "bloscpack/abstract_io.py:CompressedSink"]}
{"id": "C119", "title": "a source that was used before", "statement": "Using a source again never silently gives something else than the first time: unpacking from a source that was unpacked before raises an exception and writes nothing if no further chunk can follow the archive, and gives the same data again once its file object is set back to where the chunks begin; packing from a source again gives the same archive or raises an exception. (Violated by packing: a plain source whose file object is at the end gives an archive that holds no data, and no exception.)", "quantifier": "all archives, all places in a file object they can be at, and all packings", "why_tests_cant": "all histories", "anchors": ["bloscpack/file_io.py:CompressedFPSource", "bloscpack/file_io.py:PlainFPSource", "bloscpack/abstract_io.py:pack", "bloscpack/abstract_io.py:unpack"]}
{"id": "C120", "title": "a sink for unpacked data that was used before", "statement": "Unpacking with a sink that was used before, for instance to try again after a failure or to unpack several archives, loses nothing and writes to no other memory: a file object or a sink in memory holds what each unpacking gives on its own, in order; a sink in memory that has all the chunks it was made for stays as it is, and an exception is raised; an array is filled again from its beginning. (Violated by the last: a sink for arrays goes on where it stopped, so a second unpacking is stored in the memory behind the array.)", "quantifier": "all histories of unpackings, successful or not, from all sources, with one sink", "why_tests_cant": "all histories", "anchors": ["bloscpack/file_io.py:PlainFPSink", "bloscpack/memory_io.py:PlainMemorySink", "bloscpack/numpy_io.py:PlainNumpySink", "bloscpack/abstract_io.py:unpack"]}
