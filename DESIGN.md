# A Lean 4 model of Blosc/bloscpack

Code under study: `/repo` (bloscpack 0.17.0.dev0, Python 3 semantics, i.e. the `six.PY3` branches).
Model and proofs: `/verif/lean/Verif/`. Properties: `properties.jsonl`; which theorem settles which: `MANIFEST.json`
(generated by `tools/gen_properties.py` and `tools/gen_manifest.py` from `tools/claims.py`).

## Layout

* `Verif/Model/*.lean`: the model, one module per Python module, branch by branch, with exceptions as values.
  Every definition cites the file and lines it models; simplifications are stated in the same comment.
* `Verif/Spec/*.lean`: small independent specifications (the file format of the README as a predicate, little-endian
  numbers, valid settings, abstract log of operations, crash states, strided arrays, dtype descriptions).
* `Verif/Lemmas/*.lean`: helper lemmas.
* `Verif/Props/*.lean`: the property theorems (`C01_...`), next to each an `example` showing that a concrete,
  non-trivial case meets the hypotheses.
* `Verif/Examples/*.lean`: concrete instances of the library parameters (`Toy.env`, `Toy.jsonEnv`, `Toy.numpy`) with proofs
  that they satisfy the laws, used by the examples. `Examples/RepoTests.lean` runs the model on the project's own tests
  (`test/*.py` and `test_cmdline/*.cram`, as far as they do not need the compiled libraries): the model gives what they expect.
* `seeded/`: wrong programs the theorems were tested against (`round*.py`, `run.py`) and what happened (`LOG.jsonl`).

## Modelling decisions

* Byte strings are `List UInt8`; Python ints are `Int`/`Nat`, unbounded; struct packing range checks are explicit.
* A file object or `BytesIO` is `FP = {data, pos, log, inMemory}`; the two kinds differ when a position before the beginning is
  sought (`OSError` for a file; a `BytesIO` goes to the beginning, or raises `ValueError` for an absolute position). `log` is a ghost history of `(position, bytes)` of the write
  calls, used only to define crash states. `read` of a short file returns fewer bytes, `read(-1)` returns the rest,
  `write` beyond the end zero-fills, exactly as Python does.
* The functions that read and write files are modelled for every kind of file object (`Readable`, `Writable`): `FP` above, a file another process
  writes to (`Shared`), and a file on a disk that fails (`Disk`), where an operation may raise `OSError` after any part of what was written has
  arrived, in order.
* Statements are `Proc σ α = σ → Except Err α × σ`, so the state reached when an exception is raised stays visible
  (needed for partial output and atomicity). Exceptions are values of `Err` (class only, messages are dropped).
* Sources and sinks are records of operations, so `pack`/`unpack` are modelled once, generically, as in the code.
* Generators are a list of yields with an optional final exception; this is equivalent to lazy iteration because source
  and sink are different objects.
* A file system is a map from names to contents plus a "may be written" predicate; `open(..., 'wb')` truncates.
* The command line tool is a program over a world of file system, printed lines and exit code. What argparse does with
  the options, values and file names of a command line is modelled; how it splits the words of the command line into these is not.
* JSON text, strings as lists of code points (lone surrogates possible), integers, lists and dicts are modelled concretely
  after CPython's `json` (with `separators=(',', ':')`). Floats are binary64 bit patterns; reading rounds to the nearest one, writing looks for the shortest text
  that reads back (`Model/Float.lean`).
* numpy arrays are strided views (dtype, shape, strides, address) of a memory `Int → UInt8`; dtypes are scalars (type string
  and size) or records with titles, offsets, sub-array shapes and nesting; `numpy.dtype(...)`, `.descr`, the contiguity
  flags, `copy` to C order and `numpy.empty` are modelled, and so are `repr` and `ast.literal_eval` on strings, integers, lists,
  tuples and None (`Model/Repr.lean`); which characters are printable and the table of type strings are parameters.
* Floating point appears only in `reverse_pretty` and `pretty_size`; binary64 numbers are modelled as mantissa and unbounded exponent with
  round to nearest even.

## Libraries

The libraries are parameters, never axioms. What is assumed of them are the fields of one structure that the theorems take
as a hypothesis:

* `Env.Laws` (`Model/Env.lean`): blosc compresses exactly valid arguments and sizes, adds at most 16 bytes, records the total
  length at bytes 12 to 15, refuses buffers of another length, and decompression inverts it; zlib decompression inverts
  compression and levels 0 to 9 work; hashlib digests have their standard sizes; the serializer's output is ASCII and is read
  back to the same object (the objects for which this is false are those for which `dumps` is not `ok` in the model; C42 says
  exactly for which JSON objects it holds).

Nothing is assumed of numpy's parameters (`NumpyLib`: which characters `repr` escapes, the sizes of the type strings).

`Toy.laws` and `Toy.jsonLaws` prove that the laws can be met. adler32 and crc32 are modelled bit by bit, and C47
relates them to their mathematical definitions (crc32 to polynomial division over GF(2), with Mathlib's polynomials; `Props/Burst.lean` derives the burst error property from that).

## Properties

For every property the status and the theorem names are in `MANIFEST.json`. *violated* means the code does not have the
property: the negation is proved, for all inputs it concerns, next to the part that does hold (`_partial`).

| id | modelled as | proof |
|----|----|----|
| C01 | `packBytesToBytes`, `unpackBytesFromBytes` | packing gives a conforming file, conforming files unpack |
| C02, C03 | `calculateNchunks` | arithmetic |
| C04, C05 | `BloscpackHeader.new/encode/decode` | little-endian lemmas; complete table of option bytes |
| C06 | `MetadataHeader.*` | same, strip and pad lemmas |
| C07 | `encodeInt64` ... | induction on width |
| C08, C09, C48 (violated) | `prepareMetadata`, `writeMetadata`, `readMetadata` | positional read/write lemmas |
| C10, C11 | `rewriteMetadataFp`, `recreateMetadata`, `seekToMetadata` | overlay lemma; state unchanged on error branches |
| C12, C18 | offsets of `File.Conforming` | invariant |
| C13, C15, C16, C17, C19 | `appendFp` | `File.Conforming` preserved; every failing branch precedes the first write |
| C14, C15, C18 | `Spec.History` | induction over histories, refinement of an abstract log |
| C20, C43, C44, C51, C52, C55 (violated) | `appendFp`, `appendFile`, `unpack` | witness for all inputs, positive part |
| C21, C22 | `unpack` with concrete adler32/crc32 | injectivity of the digest update |
| C23 (violated), C24 | `unpack` on prefixes | case analysis over the section the cut falls into |
| C25, C26, C27, C58 | crash state = prefix of the write log, last write possibly torn | induction over writes |
| C57 | the checksums and the unpack loop | a burst is `x^k · p` with `deg p < 32`, not divisible by the generator; two changed bytes change the weighted sum mod 65521 |
| C28, C56, C59 (violated), C29, C30, C61 | `packNdarray`, `unpackNdarrayFromBytes`, `packNdarrayToFile` | index arithmetic; simulation between memory and file sinks |
| C28 with gaps | `DType.descr`, `dtypeOf` (Model/Numpy.lean); Spec/Gaps.lean: `fill`, the type with void fields in place of gaps | mutual induction on types and fields |
| C60 (violated) | `packFileToFile`, `packBytesToFile`, `packNdarrayToFile` on a file system | case analysis |
| C31 | memory sinks and sources | refinement |
| C32, C33 | `handleMaxApps`, `checkArgs` | case analysis |
| C34, C35, C36, C53, C54, C49 (violated) | `cliCompress`, `cliDecompress`, `cliAppend`, `cliInfo` | case analysis, frame lemmas |
| C37 | size of `pack` output | from the layout |
| C38, C62 | `reversePretty`, `prettySize` | an exact grammar of the texts that are read (`Spec/Text.lean`) and what they mean; exactness below 2^53, nearest double otherwise; rounding error bounds |
| C39 (violated in part) | `log.py` | case analysis |
| C40 (violated) | arguments returned by the model functions | case analysis |
| C41 | `_conv` on nested values | mutual induction |
| C42 | `dumpsJson`, `loadsJson` | mutual induction |
| C63 | `MapObj`, heaps of objects | induction over histories of operations |
| C64 | `infoRead`, `infoPrint`, `pformat` | printing lemmas, injectivity of the texts |
| C65 | `unpackFileFromFile`, `blpk` | violated: universal witness; positive part for missing input and unwritable output |
| C66 | `packFileToFile`, `unpackFileFromFile` with one name | violated: universal witness by C67 with an empty source |
| C67 | `pack` with any source | the run lemma of `pack` for arbitrary pieces |
| C68 | `Shown.chat`, `Model/Cli.lean` | simulation: runs that differ only in the log level stay related |
| C69 (violated in part) | `checkChunkSizeOption`, `pyInt`, `reversePretty` | every text is one of four kinds by the grammar of `Spec/Text.lean`: accepted, refused, infinite, empty |
| C70, C71, C72 | `Model/Options.lean`: `parseArgs` against the declarative `Spec/Options.lean` | induction over the parts of the command line; the parser either gives the settings or refuses |
| C73, C74 | `blpkMain` from command line to files (`Spec/Session.lean`) | frame lemmas of the subcommands; induction over the session with the invariant that the archive is a conforming file |
| C75 | `blpk append` and `append_fp`, typesizes read back through offsets and blosc headers (`Spec/Typesize.lean`) | invariant over histories; violations: the last chunk after any successful append |
| C76 | `packBytesToBytes` with `readBeginning` | headers of the packed file read back; closed form for the defaults |
| C77 | `append_fp` with the reads as a parameter (`appendFrom`) | the file after the append is valid whatever was read; `appendFp` is an instance |
| C78 | the writes of `append_fp`, the last one cut anywhere | what the file may hold is the unharmed beginning followed by anything, or the grown file with any offsets |
| C79 | `MetadataHeader.decode`, `decode_metadata_options` | case analysis over the length and the three numbers, fields by slices of the buffer |
| C80 | `pack` from a list of chunks into `CompressedMemorySink` and `CompressedFPSink`, `unpack` into `PlainMemorySink` | the loop fails at the first chunk without a slot; too few chunks: the reader runs into the end of the file, or an empty slot; violated for files without offsets |
| C81 | `unpackFP` from every byte string against `Spec/Archive.lean` | the reader is inverted step by step; both directions |
| C82 (violated in part) | the same | via C81: the specification is monotone in the bytes but for a missing last digest |
| C83 | the same | each chunk takes at least 16 bytes; the loop fails at the same place whatever the announced number |
| C84 | `unpackFP`, `appendFile`, `rewriteMetadata` from every byte string | a predicate on procedures ("raises only …", `Lemmas/Raises.lean`) closed under composition |
| C85 | `appendFile` on files whose chunks may have any lengths (`File.Located`) | the append lemmas ask only for right offsets; negation for each of the four ways it fails |
| C86 | `unpackShared`: the readers on a file whose bytes are fetched at any moments of another process's writes (`Model/Shared.lean`, `Spec/Shared.lean`) | what every moment has in common (C78), then the readers over it; negation by the state before the header is written |
| C87 | `appendPlan`, `appendWrite`, `appendMeanwhile` (`Model/Concurrent.lean`), interleavings of recorded writes (`Spec/Concurrent.lean`) | relational logic "writing does not look" gives the same writes; they are replayed on the other process's file |
| C88 | interleavings of the writes of `appendFp` and `rewriteMetadata` | their writes go to different places: induction over the interleaving |
| C89 | `unpackShared` during `rewriteMetadata` | the two sections have the same size, so the reader ends up behind them whatever it reads |
| C90 (violated) | `packBytesToBytes`, `packBytesToFile` | every outcome of a packing run (`PackRun`), with the header that differs in one field |
| C91 | unpacking from bytes, from files, file to file, with two environments | the two runs agree step by step; what is verified is said by positions in the byte string (`Spec/Verified.lean`) |
| C92 | packing to memory and files, `appendFile`, with two ways to compress | the two runs agree step by step; the pieces are slices of the data (`Spec/Pieces.lean`) |
| C93 | `unpackNdarray`, `plainNumpySink`, every byte string | what metadata describe an array is said in `Spec/ArrayMetadata.lean`; both directions by inversion of the reader and the sink |
| C94 | `appendFp`, `rewriteMetadata` on file objects of both kinds | simulation: every operation does the same to both kinds unless it raises OSError |
| C95 | `appendFp` applied to the file object that another `appendFp` left behind | the position is the end of the last write in the log; the bytes there are never the magic string; after `seek(0)`: simulation, earlier writes do not matter |
| C96 | the model of `ast.literal_eval` (Model/Repr.lean) against a grammar of Python literals (Spec/Literal.lean) | the parser accepts exactly the texts of the grammar, by induction on its fuel; `repr` writes such texts; C93 does the rest |
| C97 | packing, appending, rewriting (as before), settings of a history (Spec/Canonical.lean) | every step keeps what makes a file the output of packing: chunks compressed with the settings, section as prepared, table of positions; such a file is what packing its data gives |
| C98 | json.loads and json.dumps (as before), the grammar of RFC 8259 (Spec/JsonText.lean, Spec/JsonNumber.lean), the nearest float (Spec/Float.lean) | completeness by induction on the bound of the recursive descent, soundness the same way; strings: tokens first, surrogates joined afterwards |
| C99 | packing (as before); the reasons in order are a specification of their own (Spec/Refused.lean) | an equivalence for each stage (chunk size, settings, metadata), joined along the run of packing; a run whose source stops at once for arrays |
| C100 | append and metadata rewrite (as before); the reasons in order are a specification of their own (Spec/Updates.lean) | the descriptions of what append and rewrite do to a conforming file, turned into equivalences; the reasons to refuse metadata are those of C99 |
| C101 | the reading functions (as before); the reasons in order, by positions in the byte string, are a specification of their own (Spec/Unreadable.lean) | an equivalence for each stage of reading: header, metadata section, offsets, chunks (induction over the number of chunks), put together |
| C102 | the writing functions for all kinds of files (`Writable`), and files of which any operation may fail when any part of what was written has arrived, and input files of which reading fails from some call on (Model/Disk.lean) | simulation: a run on a failing disk does the same as one on a disk that works, until it raises OSError and leaves a crash state of C26, C27, C58, C78 |
| C103 | the states of C27 (`interrupted_states`), then another `append` | the state is a file with right offsets and another last chunk (then C85 says what appending does), or one whose last offset is -1, or the completed file |
| C104 | the states of C58, then another `rewrite_metadata` | the section is a mixture of the old and the new one; whatever can be read from it, it is overwritten in full |
| C105 | `Spec.Replacing` (the old content, or a crash state of the log over the emptied file) and `Spec.SeenReplaced` (a reader whose first reads see the old file and whose later ones see the new one) | C26 over the emptied file; the reader of C88 over a spliced file, which is itself conforming |
| C106 | `Spec.SeenPacking`, `Spec.SeenAnyTime`, `Spec.OnlyWhole`, `Spec.DigestsNoted` over the recorded writes of `packBytes`; the reader of C88 | each call of `read` finds a prefix of what it should; what is short before the chunks is refused or leaves the reader in the space for the offsets; induction over the chunks that have been written by the end |
| C107 | Model/NumpyDisk.lean: `packNdarrayDisk`, `unpackNdarrayDisk` on the disks of C102; `Spec.Crashed`, `Spec.SameArray` | packing an array writes what packing its buffer would write, or the beginning of it (`packNdarray_log`), then C26; simulation of a run on a working disk for the memory that is filled |
| C108 | Model/NumpyShared.lean: `unpackNdarrayShared` on the shared files of C106; `Spec.SeenAnyTime`, `Spec.SameArray` | unpacking an array from any kind of file fills its memory with what unpacking the file gives (`unpackNdarrayWith_fp`), then `packNdarray_log` and C106_read_dict_partial |
| C109 | Spec/Race.lean: `race`, a schedule of processes that open a file and write to it byte by byte; the writes are those in the log of `packBytes` and `packNdarray` | invariant: which part of its writes each process has made since the file was emptied for the last time, and that every byte is the last one of such a part (`Raced`); when all are done every part is a suffix of the same writes |
| C110 | the writes are those in the logs of `rewriteMetadata` runs on the same archive | `replay_sections`: the section always begins with one of the headers written, everything else stays inside it; then `unpackShared_section` as for C89 |
| C111 | Model/CliShared.lean: `blpkAmid`, the program of C35 with arbitrary changes of the files between its steps (`C111_alone`: without changes it is that program) | violated: the check and the opening are two steps. Positive part by cases on where the program ends, as for C35 |
| C112 | `race` (Spec/Race.lean) with different writes for the processes; the writes are those in the logs of `packBytes` | violated: the writes of one process are resumed on the finished archive of the other one. Positive part: the invariant `Raced`, when all are done |
| C113 | `pack` and `unpack` (Model/AbstractIO.lean) are functions of a source and a sink, records of methods on an object of any type; Spec/Protocol.lean: lists of method calls and their execution, `Yielded`, `Unpacked` | induction on the chunks that the source yields |
| C114 | `MapObj.repr` (Model/Objects.lean); Spec/PyCall.lean: a reader for Python calls with literal arguments | per byte by the complete table of 256 values, then induction on bytes, digits and attributes |
| C115 | Model/Numpy.lean; Spec/Layout.lean: indices in C and in Fortran order, the elements in these orders | memory of a contiguous array is the elements in order (induction on the shape), and `pack` uses the source only through its items |
| C116 | Model/NumpyChanging.lean: the memory when each chunk is compressed | the chunks tile the elements (the chunk size is a multiple of the item size), position of an element in either order by induction on the shape, then C67 |
| C117 | Model/Streams.lean: `pack` and `unpack` on a file object that is anywhere | the writing and reading lemmas hold behind any prefix; induction on the list of packings; exact bytes for packing with offsets, where the property is violated |
| C118 | Model/Streams.lean: `packAgain`, `packAgainAll`, `pack` to a sink in the state earlier uses left it in | the writing lemmas for any state of the sink; an invariant of every step of `pack` without metadata; exact bytes where the property is violated |
| C119 | Model/Streams.lean: `openSource`, `FPSource.unpackTo`, `packFrom` | reading the records of a file at any place; a chunk header that is too short raises; C67 for what a used plain source delivers |
| C120 | Model/Streams.lean: `unpackSeq` with the `put` of the sinks for files, memory and arrays | simulation of every sink by a sink on an empty file, kept over all histories |
| C45, C47, C50 | readers, checksums | case analysis; induction |
| C46 | entry points, on files and in memory | the two kinds of file object differ only in `seek`: packing never seeks back, unpacking does so once, after the metadata; violated when that leads before the beginning |

## What is modelled and what is not

| file | modelled | not modelled |
|----|----|----|
| abstract_io.py | everything | log output |
| abstract_objects.py | everything (`Model/Objects.lean`) | |
| append.py | everything (C77: the same file as original and new content) | log output |
| args.py | everything | log output |
| checksums.py | everything | hashlib itself |
| cli.py | `check_files`, `process_*_args`, `log_metadata`, the four subcommands, `main`, the options and subcommands of `create_parser` with their checks (`Model/Options.lean`) | how argparse splits words into options and values, texts of help and usage messages (printing them is assumed not to raise), `blosc.set_nthreads`, wording of some messages, `pprint` of metadata |
| file_io.py | everything | log output; with one file as input and output, the reads seeing what is being written |
| headers.py | everything | |
| log.py | everything | the texts of verbose and debug messages are arbitrary (`Shown.chat`), formatting them never raises |
| memory_io.py | everything | |
| metacodecs.py, serializers.py | lookups, checks | zlib itself |
| numpy_io.py | everything | floats in old metadata, void and datetime types beyond their type string |
| pretty.py | everything, with `float` and `int` of ASCII texts including underscores, infinities and NaN | digits and whitespace outside ASCII |
| sysutil.py, testutil.py, version.py, util.py, compat_util.py | | test and benchmark helpers |

Concurrent use is modelled for a reader beside an append or a metadata rewrite (C86, C89) and for two processes that write to one archive
(C87, C88). There the order of writes is the program order of each process, and a single write is not interleaved with another one.

Not expressible in this model: thread schedules inside blosc (`nthreads` is passed through), performance, durability below the
level of write calls (fsync, reordering by the OS), memory exhaustion for gigantic preallocations and for reads of forged gigantic
sizes, disks that are full.

## Trusted base

* Lean's kernel (4.33.0) and, for `Props/Crc.lean` and `Props/Burst.lean`, Mathlib's polynomial library, checked by the same kernel.
* No axioms of our own, no `sorry`, no `native_decide`, no `bv_decide`. `decide` is used for complete finite tables and for
  examples only.
* The model: that the definitions under `Verif/Model` describe the Python code, and Python's, numpy's and the libraries' behaviour
  as listed above.
* Axioms of each claimed theorem (all of them Lean's standard three):

  * `Classical.choice`, `Quot.sound`, `propext`: Bloscpack.C01_roundtrip, Bloscpack.C01_total, Bloscpack.C01_defaults, Bloscpack.C02_chunking_covers, Bloscpack.C03_chunking_rejected, Bloscpack.C04_header_roundtrip, Bloscpack.C05_header_strict, Bloscpack.C05_header_injective, Bloscpack.C06_meta_header_roundtrip, Bloscpack.C06_meta_header_roundtrip_exact, Bloscpack.C07_encode_uint8, Bloscpack.C07_encode_uint32, Bloscpack.C07_encode_int32, Bloscpack.C07_encode_int64, Bloscpack.C08_section_roundtrip, Bloscpack.C09_stored, Bloscpack.C09_too_small, Bloscpack.C09_failure_writes_nothing, Bloscpack.C10_rewrite, Bloscpack.C10_total, Bloscpack.C100_append, Bloscpack.C100_append_file, Bloscpack.C100_rewrite, Bloscpack.C100_accepted, Bloscpack.C101_memory, Bloscpack.C101_file, Bloscpack.C101_files, Bloscpack.C101_either, Bloscpack.C102_pack, Bloscpack.C102_pack_works, Bloscpack.C102_pack_safe, Bloscpack.C102_append, Bloscpack.C102_append_safe, Bloscpack.C102_append_input, Bloscpack.C102_append_input_safe, Bloscpack.C102_append_input_works, Bloscpack.C102_rewrite_safe, Bloscpack.C102_unpack_safe, Bloscpack.C103_repeated_partial, Bloscpack.C103_failed_partial, Bloscpack.C103_stuck, Bloscpack.C103_doubled_violated, Bloscpack.C104_repeated_partial, Bloscpack.C104_torn_partial, Bloscpack.C104_stuck_violated, Bloscpack.C105_interrupted_partial, Bloscpack.C105_lost_violated, Bloscpack.C105_mixture_violated, Bloscpack.C106_read_while_packing_partial, Bloscpack.C106_read_any_time_partial, Bloscpack.C106_read_dict_partial, Bloscpack.C107_interrupted, Bloscpack.C107_writes, Bloscpack.C107_pack, Bloscpack.C107_unpack, Bloscpack.C107_unpack_safe, Bloscpack.C108_read_while_packing_partial, Bloscpack.C109_same, Bloscpack.C109_arrays, Bloscpack.C11_reasons, Bloscpack.C110_data, Bloscpack.C110_append, Bloscpack.C110_read, Bloscpack.C111_alone, Bloscpack.C111_kept_partial, Bloscpack.C111_compress_violated, Bloscpack.C111_decompress_violated, Bloscpack.C111_two_violated, Bloscpack.C111_input_gone, Bloscpack.C112_bytes_partial, Bloscpack.C112_one_after_the_other_partial, Bloscpack.C112_mixture_violated, Bloscpack.C113_pack, Bloscpack.C113_unpack, Bloscpack.C114_repr, Bloscpack.C114_header, Bloscpack.C114_metadata_header, Bloscpack.C115_stored, Bloscpack.C115_layout, Bloscpack.C115_layout_bytes, Bloscpack.C115_again, Bloscpack.C116_changed, Bloscpack.C116_copied, Bloscpack.C116_unchanged, Bloscpack.C117_read, Bloscpack.C117_behind_partial, Bloscpack.C117_violated, Bloscpack.C118_reuse_partial, Bloscpack.C118_memory, Bloscpack.C118_violated, Bloscpack.C119_twice_partial, Bloscpack.C119_again_partial, Bloscpack.C119_rewound_partial, Bloscpack.C119_violated, Bloscpack.C12_offsets_exact, Bloscpack.C120_array, Bloscpack.C120_violated, Bloscpack.C120_retry_violated, Bloscpack.C13_append, Bloscpack.C13_total, Bloscpack.packed_appendable, Bloscpack.C14_history, Bloscpack.C15_not_enough_space, Bloscpack.C15_bookkeeping, Bloscpack.C16_failed_append_untouched, Bloscpack.C16_small, Bloscpack.C17_same_chunking, Bloscpack.C18_offsets_exact, Bloscpack.C19_append_needs_offsets, Bloscpack.C20_violated, Bloscpack.C20_append_nothing_partial, Bloscpack.C20_append_nothing_succeeds_partial, Bloscpack.C21_single_byte, Bloscpack.C22_collision, Bloscpack.C81_memory, Bloscpack.C23_truncation_partial, Bloscpack.C23_truncation_without_checksum, Bloscpack.C23_violated, Bloscpack.C23_exact, Bloscpack.C24_truncated_output, Bloscpack.C24_corrupted_output, Bloscpack.C25_offsets_minus_one, Bloscpack.C26_interrupted_pack, Bloscpack.C26_writes, Bloscpack.C27_interrupted_append, Bloscpack.C27_writes, Bloscpack.C28_roundtrip_partial, Bloscpack.C28_violated, Bloscpack.C28_exact, Bloscpack.C28_gaps_partial, Bloscpack.C28_gaps_fields_partial, Bloscpack.C28_unreadable, Bloscpack.C29_objects_rejected, Bloscpack.C29_objects_only, Bloscpack.C29_accepted_iff, Bloscpack.C29_exceptions, Bloscpack.C29_order, Bloscpack.C30_pairs_tile, Bloscpack.C30_unpack_fills, Bloscpack.C31_memory_roundtrip, Bloscpack.C31_memory_as_file, Bloscpack.C32_header, Bloscpack.C33_check_args, Bloscpack.C34_compress, Bloscpack.C34_decompress, Bloscpack.C34_refused, Bloscpack.C34_inverse, Bloscpack.C35_no_overwrite, Bloscpack.C36_roundtrip, Bloscpack.C36_total, Bloscpack.C37_size, Bloscpack.C38_exact, Bloscpack.C38_integer, Bloscpack.C38_str, Bloscpack.C38_decimal, Bloscpack.C38_nearest, Bloscpack.C38_rejected, Bloscpack.C38_empty, Bloscpack.C38_not_finite, Bloscpack.C38_no_digit, Bloscpack.C39_levels, Bloscpack.C40_pack_violated, Bloscpack.C40_pack_history, Bloscpack.C40_pack_partial, Bloscpack.C40_ndarray_violated, Bloscpack.C40_append_violated, Bloscpack.C40_append_exact_partial, Bloscpack.C40_append_refused, Bloscpack.C41_old_files, Bloscpack.C42_exact, Bloscpack.C42_roundtrip, Bloscpack.C42_ascii, Bloscpack.C43_violated, Bloscpack.C43_undecodable_partial, Bloscpack.C44_violated, Bloscpack.C44_preserved_partial, Bloscpack.C45_version, Bloscpack.C45_packed_version, Bloscpack.C45_not_bloscpack, Bloscpack.C46_pack_agree, Bloscpack.C46_unpack_agree_partial, Bloscpack.C46_unpack_memory, Bloscpack.C46_unpack_violated, Bloscpack.C47_digest_sizes, Bloscpack.C47_adler32, Bloscpack.C47_crc32, Bloscpack.C48_level_partial, Bloscpack.C48_violated, Bloscpack.C49_violated, Bloscpack.C49_exit_partial, Bloscpack.C51_violated, Bloscpack.C51_small_append_partial, Bloscpack.C52_violated, Bloscpack.C52_offsets, Bloscpack.C52_known_partial, Bloscpack.C53_info_readonly, Bloscpack.C53_info_rejects, Bloscpack.C53_info_packed, Bloscpack.C54_refused, Bloscpack.C54_only_original, Bloscpack.C54_append, Bloscpack.C55_violated, Bloscpack.C55_with_metadata_partial, Bloscpack.C55_outcomes, Bloscpack.C56_violated, Bloscpack.C56_append_violated, Bloscpack.C56_written_partial, Bloscpack.C57_crc32, Bloscpack.C57_adler32, Bloscpack.C58_outside, Bloscpack.C58_between, Bloscpack.C58_torn, Bloscpack.C59_violated, Bloscpack.C59_rejected_partial, Bloscpack.C59_arrays_pass, Bloscpack.C60_violated, Bloscpack.C60_ndarray_violated, Bloscpack.C60_refused_partial, Bloscpack.C61_pack, Bloscpack.C61_roundtrip, Bloscpack.C62_text, Bloscpack.C62_back, Bloscpack.C62_exact, Bloscpack.C62_other, Bloscpack.C62_double, Bloscpack.C63_update, Bloscpack.C63_blosc_args, Bloscpack.C64_info, Bloscpack.C64_info_packed, Bloscpack.C64_header_told, Bloscpack.C64_metadata_header_told, Bloscpack.C64_chunk_header_told, Bloscpack.C65_cli_violated, Bloscpack.C66_pack_violated, Bloscpack.C66_input_kept_partial, Bloscpack.C67_holds_what_was_read, Bloscpack.C67_input_changed, Bloscpack.C68_verbosity, Bloscpack.C68_quiet, Bloscpack.C69_size, Bloscpack.C69_accepted, Bloscpack.C69_meaning, Bloscpack.C69_refused_partial, Bloscpack.C69_violated, Bloscpack.C70_order, Bloscpack.C71_compress, Bloscpack.C72_accepted, Bloscpack.C72_refused, Bloscpack.C72_usage, Bloscpack.C73_only_output, Bloscpack.C74_session, Bloscpack.C74_decompress, Bloscpack.C75_uniform_partial, Bloscpack.C75_violated, Bloscpack.C75_blpk_violated, Bloscpack.C76_settings, Bloscpack.C76_defaults, Bloscpack.C77_appends_what_was_read, Bloscpack.C77_announced_size, Bloscpack.C78_last_chunk_only, Bloscpack.C78_untouched_bytes, Bloscpack.C79_accepted, Bloscpack.C79_meaning, Bloscpack.C79_refused, Bloscpack.C80_violated, Bloscpack.C80_too_many_partial, Bloscpack.C80_file_too_many_partial, Bloscpack.C80_too_few, Bloscpack.C80_file_too_few, Bloscpack.C80_slots, Bloscpack.C81_memory, Bloscpack.C81_file, Bloscpack.C81_files, Bloscpack.C82_packed, Bloscpack.C82_accepted, Bloscpack.C82_violated, Bloscpack.C83_accepted, Bloscpack.C83_forged, Bloscpack.C84_no_header, Bloscpack.C84_append, Bloscpack.C85_appends_partial, Bloscpack.C85_history_partial, Bloscpack.C85_failed_untouched_partial, Bloscpack.C85_unknown_chunk_size, Bloscpack.C85_unknown_last_chunk_violated, Bloscpack.C85_long_last_chunk_violated, Bloscpack.C85_failed_violated, Bloscpack.C85_wrong_offset_violated, Bloscpack.C86_last_chunk_only_partial, Bloscpack.C86_new_header_partial, Bloscpack.C86_violated, Bloscpack.C87_violated, Bloscpack.C87_last_chunk_only_partial, Bloscpack.C87_one_after_the_other_partial, Bloscpack.C87_same_writes, Bloscpack.C88_append_and_rewrite, Bloscpack.C89_data, Bloscpack.C90_violated, Bloscpack.C90_packs_partial, Bloscpack.C91_only_verified, Bloscpack.C91_guard, Bloscpack.C92_pack, Bloscpack.C92_pack_size, Bloscpack.C92_append, Bloscpack.C92_append_size, Bloscpack.C93_memory, Bloscpack.C93_file, Bloscpack.C93_refused, Bloscpack.C93_left_behind, Bloscpack.C94_append, Bloscpack.C94_new_content, Bloscpack.C95_violated, Bloscpack.C95_rewound_partial, Bloscpack.C95_twice_partial, Bloscpack.C96_stored, Bloscpack.C96_read, Bloscpack.C96_one_meaning, Bloscpack.C97_all_at_once, Bloscpack.C97_split, Bloscpack.C98_read, Bloscpack.C98_refused, Bloscpack.C98_one_meaning, Bloscpack.C98_written, Bloscpack.C98_section, Bloscpack.C98_foreign, Bloscpack.C98_whole, Bloscpack.C99_refused, Bloscpack.C99_accepted, Bloscpack.C99_file, Bloscpack.C99_array
  * `Quot.sound`, `propext`: Bloscpack.C07_decode_uint8, Bloscpack.C07_decode_uint32, Bloscpack.C07_decode_int32, Bloscpack.C07_decode_int64, Bloscpack.C07_decode_total, Bloscpack.C102_rewrite, Bloscpack.C102_unpack, Bloscpack.C11_failed_rewrite_untouched, Bloscpack.C120_file_partial, Bloscpack.C120_memory_partial, Bloscpack.C120_full_partial, Bloscpack.C22_only_verified, Bloscpack.C31_sources_agree, Bloscpack.C31_plain_sinks_agree, Bloscpack.C32_exact, Bloscpack.C32_rejected, Bloscpack.C39_every_message, Bloscpack.C40_append_partial, Bloscpack.C46_unpack_files, Bloscpack.C50_blosc_header, Bloscpack.C50_blosc_header_total, Bloscpack.C63_copy, Bloscpack.C63_eq, Bloscpack.C63_copy_eq, Bloscpack.C63_items, Bloscpack.C65_violated, Bloscpack.C65_refused_partial, Bloscpack.C66_unpack_violated, Bloscpack.C72_int, Bloscpack.C79_reserved_options, Bloscpack.C84_unpack_memory, Bloscpack.C84_unpack_file, Bloscpack.C84_rewrite, Bloscpack.C86_alone, Bloscpack.C94_rewrite
  * `propext`: Bloscpack.C06_strip_decomposition, Bloscpack.C32_ignored, Bloscpack.C39_filter, Bloscpack.C39_unknown_level, Bloscpack.C39_unknown_current, Bloscpack.C39_error, Bloscpack.C39_set_level_violated, Bloscpack.C39_set_level_partial, Bloscpack.C41_conv, Bloscpack.C50_blosc_flags, Bloscpack.C63_keys, Bloscpack.C63_kept, Bloscpack.C63_last, Bloscpack.C63_refused, Bloscpack.info_writes_nothing
