import Verif.Examples.JsonEnv
import Verif.Examples.Numpy
import Verif.Model.Options
import Verif.Model.Append
/-
The project's own tests (test/*.py and test_cmdline/*.cram), as far as they do not depend on what blosc, zlib and hashlib compute,
run on the model. They prove nothing general: they are a check of the model against the behaviour the authors of the program
have observed and expect. Each example names the test it is taken from; the values are the ones in the tests.
-/
namespace Bloscpack.RepoTests

/-! ### test/test_headers.py -/

/-- test_check_range, lines 38-44 -/
example : checkRange .other 0 1 = .error .typeError ∧ checkRange (.int (-1)) 0 1 = .error .valueError ∧
    checkRange (.int 2) 0 1 = .error .valueError := by decide

/-- test_create_options, lines 47-60 -/
example : createOptions false false = "00000000".toList ∧ createOptions false true = "00000010".toList ∧
    createOptions true false = "00000001".toList ∧ createOptions true true = "00000011".toList := by decide

/-- test_decode_options, lines 63-70: (offsets, metadata) -/
example : decodeOptions "00000000".toList = .ok (false, false) ∧ decodeOptions "00000001".toList = .ok (true, false) ∧
    decodeOptions "00000010".toList = .ok (false, true) ∧ decodeOptions "00000011".toList = .ok (true, true) := by decide

/-- test_decode_options_exceptions, lines 73-85 -/
example : ["0000000", "000000000", "0000000a", "abc", "00000100", "00001100", "11111100"].all
    (fun s => decodeOptions s.toList == .error .valueError) = true := by decide

/-- test_check_options_exceptions, lines 97-111 -/
example : ["0", "1", "0000000", "000000000", "1111111", "111111111", "0000000a", "aaaaaaaa"].all
    (fun s => checkOptions s.toList == .error .valueError) = true := by decide

/-- test_create_metadata_options, test_decode_metadata_options, lines 114-119 -/
example : createMetadataOptions = "00000000".toList ∧ decodeMetadataOptions "00000000".toList = .ok () := by decide

/-- test_decode_metadata_options_exceptions, lines 122-134 -/
example : ["0000000", "000000000", "0000000a", "abc", "00000001", "00001111", "11111111"].all
    (fun s => decodeMetadataOptions s.toList == .error .valueError) = true := by decide

/-- test_decode_blosc_header_uncompressible_data, lines 170-185: the header blosc writes for 1020 incompressible bytes -/
example : decodeBloscHeader ([2, 1, 0x13, 8] ++ leEncode 4 1020 ++ leEncode 4 1016 ++ leEncode 4 1036) =
    .ok { versionlz := 1, blocksize := 1016, ctbytes := 1036, version := 2, flags := 0x13, nbytes := 1020, typesize := 8 } := by
  decide +kernel

def noFlags : BloscFlags := ⟨false, false, false, false, "blosclz"⟩

/-- test_decode_blosc_flags, lines 208-231 -/
example :
    decodeBloscFlags 0b00000000 = .ok noFlags ∧
    decodeBloscFlags 0b00000001 = .ok { noFlags with byteShuffle := true } ∧
    decodeBloscFlags 0b00000010 = .ok { noFlags with pureMemcpy := true } ∧
    decodeBloscFlags 0b00000100 = .ok { noFlags with bitShuffle := true } ∧
    decodeBloscFlags 0b00010000 = .ok { noFlags with splitBlocks := true } ∧
    decodeBloscFlags 0b00100000 = .ok { noFlags with codec := "lz4" } ∧
    decodeBloscFlags 0b01000000 = .ok { noFlags with codec := "snappy" } ∧
    decodeBloscFlags 0b01100000 = .ok { noFlags with codec := "zlib" } ∧
    decodeBloscFlags 0b10000000 = .ok { noFlags with codec := "zstd" } := by decide

/-- `BloscpackHeader()` -/
def hdr : BloscpackHeader := ⟨3, false, false, "None", 0, -1, -1, -1, 0⟩

/-- is the result an exception that `pytest.raises(ValueError)` accepts? -/
def raisesValueError {α : Type} : Except Err α → Bool
  | .error e => e.isValueError
  | .ok _ => false

/-- test_BloscPackHeader_constructor_exceptions, lines 234-273 (without the arguments of a wrong type) -/
example : [
    { hdr with format_version := -1 }, { hdr with format_version := MAX_FORMAT_VERSION + 1 },
    { hdr with checksum := "foo" },
    { hdr with typesize := -1 }, { hdr with typesize := BLOSC_MAX_TYPESIZE + 1 },
    { hdr with chunk_size := BLOSC_MAX_BUFFERSIZE + 1 }, { hdr with chunk_size := -2 },
    { hdr with last_chunk := BLOSC_MAX_BUFFERSIZE + 1 }, { hdr with last_chunk := -2 },
    { hdr with nchunks := MAX_CHUNKS + 1 }, { hdr with nchunks := -2 },
    { hdr with max_app_chunks := MAX_CHUNKS + 1 }, { hdr with max_app_chunks := -1 },
    { hdr with nchunks := MAX_CHUNKS / 2 + 1, max_app_chunks := MAX_CHUNKS / 2 + 1 },
    { hdr with nchunks := -1, max_app_chunks := 1 },
    { hdr with chunk_size := 1, last_chunk := 2 }].all (fun h => raisesValueError h.new) = true := by decide +kernel

example : ({ hdr with checksum := "foo" } : BloscpackHeader).new = .error .noSuchChecksum := by decide +kernel

/-- test_BloscPackHeader_total_prospective_entries, lines 276-290 -/
example : ([(some 0, 0, 0), (some 1, 1, 0), (some 1, 0, 1), (none, -1, 0), (some 65, 42, 23),
    (some (MAX_CHUNKS - 1), MAX_CHUNKS / 2, MAX_CHUNKS / 2), (some MAX_CHUNKS, MAX_CHUNKS - 1, 1),
    (some MAX_CHUNKS, 1, MAX_CHUNKS - 1)] : List (Option Int × Int × Int)).all (fun (e, n, m) =>
      ({ hdr with nchunks := n, max_app_chunks := m } : BloscpackHeader).totalProspectiveChunks == e) = true := by decide +kernel

/-- `raw`, lines 296-299 -/
def raw : Bytes := MAGIC ++ [3] ++ [0, 0, 0, 255, 255, 255, 255, 255, 255, 255, 255] ++
  [255, 255, 255, 255, 255, 255, 255, 255, 0, 0, 0, 0, 0, 0, 0, 0]

/-- `mod_raw`, lines 302-304 -/
def modRaw (r : Bytes) (offset : Nat) (replacement : Bytes) : Bytes := r.take offset ++ replacement ++ r.drop (offset + replacement.length)

/-- the table of test_BloscpackHeader_encode, lines 309-350, and test_BloscpackHeader_decode, lines 370-416 -/
def table : List (Nat × Bytes × BloscpackHeader) := [
  (4, [23], { hdr with format_version := 23 }),
  (5, [1], { hdr with offsets := true }),
  (5, [2], { hdr with metadata := true }),
  (5, [3], { hdr with offsets := true, metadata := true }),
  (6, [1], { hdr with checksum := "adler32" }),
  (6, [7], { hdr with checksum := "sha384" }),
  (6, [8], { hdr with checksum := "sha512" }),
  (7, [1], { hdr with typesize := 1 }),
  (7, [2], { hdr with typesize := 2 }),
  (7, [4], { hdr with typesize := 4 }),
  (7, [8], { hdr with typesize := 8 }),
  (7, [16], { hdr with typesize := 16 }),
  (7, [255], { hdr with typesize := 255 }),
  (8, [255, 255, 255, 255], { hdr with chunk_size := -1 }),
  (8, [1, 0, 0, 0], { hdr with chunk_size := 1 }),
  (8, [0, 0, 16, 0], { hdr with chunk_size := 2 ^ 20 }),
  (8, [0xef, 255, 255, 0x7f], { hdr with chunk_size := BLOSC_MAX_BUFFERSIZE }),
  (12, [255, 255, 255, 255], { hdr with last_chunk := -1 }),
  (12, [1, 0, 0, 0], { hdr with last_chunk := 1 }),
  (12, [0, 0, 16, 0], { hdr with last_chunk := 2 ^ 20 }),
  (12, [0xef, 255, 255, 0x7f], { hdr with last_chunk := BLOSC_MAX_BUFFERSIZE }),
  (16, [255, 255, 255, 255, 255, 255, 255, 255], { hdr with nchunks := -1 }),
  (16, [0, 0, 0, 0, 0, 0, 0, 0], { hdr with nchunks := 0 }),
  (16, [1, 0, 0, 0, 0, 0, 0, 0], { hdr with nchunks := 1 }),
  (16, [127, 0, 0, 0, 0, 0, 0, 0], { hdr with nchunks := 127 }),
  (16, [0, 0, 16, 0, 0, 0, 0, 0], { hdr with nchunks := 2 ^ 20 }),
  (16, [255, 255, 255, 255, 255, 255, 255, 127], { hdr with nchunks := MAX_CHUNKS }),
  (16, [1, 0, 0, 0, 0, 0, 0, 0, 0, 0, 0, 0, 0, 0, 0, 0], { hdr with nchunks := 1, max_app_chunks := 0 }),
  (16, [1, 0, 0, 0, 0, 0, 0, 0, 1, 0, 0, 0, 0, 0, 0, 0], { hdr with nchunks := 1, max_app_chunks := 1 }),
  (16, [1, 0, 0, 0, 0, 0, 0, 0, 127, 0, 0, 0, 0, 0, 0, 0], { hdr with nchunks := 1, max_app_chunks := 127 }),
  (16, [1, 0, 0, 0, 0, 0, 0, 0, 0, 0, 16, 0, 0, 0, 0, 0], { hdr with nchunks := 1, max_app_chunks := 2 ^ 20 }),
  (16, [1, 0, 0, 0, 0, 0, 0, 0, 254, 255, 255, 255, 255, 255, 255, 127], { hdr with nchunks := 1, max_app_chunks := MAX_CHUNKS - 1 })]

/-- test_BloscpackHeader_encode, lines 293-352 -/
example : hdr.encode = .ok raw ∧ table.all (fun (o, r, h) => h.new == .ok h && h.encode == .ok (modRaw raw o r)) = true := by
  decide +kernel

/-- test_BloscpackHeader_decode, lines 355-419 -/
example : BloscpackHeader.decode raw = .ok hdr ∧
    table.all (fun (o, r, h) => BloscpackHeader.decode (modRaw raw o r) == .ok h) = true := by decide +kernel

/-- `MetadataHeader()` -/
def mhdr : MetadataHeader := ⟨[], "00000000".toList, "None", "None", 0, 0, 0, 0, []⟩

/-- the table of test_MetadataHeader_encode, lines 446-459, and test_MetadataHeader_decode, lines 483-495 -/
def metaTable : List (Nat × Bytes × MetadataHeader) := [
  (0, [74, 83, 79, 78], { mhdr with magic_format := [74, 83, 79, 78] }),
  (9, [1], { mhdr with meta_checksum := "adler32" }),
  (10, [1], { mhdr with meta_codec := "zlib" }),
  (11, [1], { mhdr with meta_level := 1 }),
  (12, [1, 0, 0, 0], { mhdr with meta_size := 1 }),
  (12, [255, 255, 255, 255], { mhdr with meta_size := MAX_META_SIZE }),
  (16, [1, 0, 0, 0], { mhdr with max_meta_size := 1 }),
  (16, [255, 255, 255, 255], { mhdr with max_meta_size := MAX_META_SIZE }),
  (20, [1, 0, 0, 0], { mhdr with meta_comp_size := 1 }),
  (20, [255, 255, 255, 255], { mhdr with meta_comp_size := MAX_META_SIZE }),
  (24, [115, 101, 115, 97, 109, 101], { mhdr with user_codec := [115, 101, 115, 97, 109, 101] })]

/-- test_MetadataHeader_encode, lines 434-462 -/
example : mhdr.encode = .ok (List.replicate 32 0) ∧ metaTable.all (fun (o, r, h) =>
    h.new == .ok h && h.encode == .ok (modRaw (List.replicate 32 0) o r)) = true := by decide +kernel

/-- test_MetadataHeader_decode, lines 465-497 -/
example : MetadataHeader.decode (List.replicate 32 0) = .ok mhdr ∧
    metaTable.all (fun (o, r, h) => MetadataHeader.decode (modRaw (List.replicate 32 0) o r) == .ok h) = true := by decide +kernel

/-! ### test/test_args.py -/

/-- test_check_blosc_arguments, test_check_bloscpack_arguments, test_check_metadata_arguments, lines 34-70 -/
example : checkArgs ["clevel", "shuffle", "cname"] bloscArgKeys = .error .valueError ∧
    checkArgs (bloscArgKeys ++ ["wtf"]) bloscArgKeys = .error .valueError ∧
    checkArgs ["checksum", "max_app_chunks"] bloscpackArgKeys = .error .valueError ∧
    checkArgs (bloscpackArgKeys ++ ["wtf"]) bloscpackArgKeys = .error .valueError ∧
    checkArgs ["meta_checksum", "meta_codec", "meta_level", "max_meta_size"] metadataArgKeys = .error .valueError ∧
    checkArgs (metadataArgKeys ++ ["wtf"]) metadataArgKeys = .error .valueError := by decide

/-- test_check_bloscpack_arguments_accpets_None_as_checksum, lines 56-58 -/
example : (BloscpackArgs.new true none DEFAULT_MAX_APP_CHUNKS).checksum = "None" := by decide

/-- test_calculate_nchunks, lines 73-113 -/
example :
    calculateNchunks 23 (.int 0) = .error .valueError ∧ calculateNchunks 23 (.int (-1)) = .error .valueError ∧
    calculateNchunks 9 (.int 1) = .ok (9, 1, 1) ∧ calculateNchunks 9 (.int 2) = .ok (5, 2, 1) ∧
    calculateNchunks 9 (.int 3) = .ok (3, 3, 3) ∧ calculateNchunks 9 (.int 4) = .ok (3, 4, 1) ∧
    calculateNchunks 9 (.int 5) = .ok (2, 5, 4) ∧ calculateNchunks 9 (.int 6) = .ok (2, 6, 3) := by decide +kernel
example :
    calculateNchunks 9 (.int 7) = .ok (2, 7, 2) ∧ calculateNchunks 9 (.int 8) = .ok (2, 8, 1) ∧
    calculateNchunks 9 (.int 9) = .ok (1, 9, 9) ∧ calculateNchunks 23 (.int 24) = .ok (1, 23, 23) ∧
    calculateNchunks 1 (.int 1) = .ok (1, 1, 1) ∧ calculateNchunks 0 (.int 1) = .ok (1, 0, 0) ∧
    calculateNchunks 0 (.int 512) = .ok (1, 0, 0) ∧ calculateNchunks (-1) = .error .valueError := by decide +kernel
example :
    calculateNchunks (MAX_CHUNKS + 1) (.int 1) = .error .chunkingException ∧
    reversePretty "5.2M".toList = .ok 5452595 ∧ calculateNchunks 5452595 = .ok (6, 1048576, 209715) ∧
    calculateNchunks 5452595 (.str "2M".toList) = .ok (3, 2097152, 1258291) := by decide +kernel

/-- test_handle_max_apps, lines 116-128 -/
example :
    handleMaxApps true 10 (.int 10) = .ok 10 ∧ handleMaxApps true 10 (.callable (fun x => some (x * 10))) = .ok 100 ∧
    handleMaxApps true 1 (.callable (fun _ => some MAX_CHUNKS)) = .ok (MAX_CHUNKS - 1) ∧
    handleMaxApps true 1 (.callable (fun _ => some (MAX_CHUNKS + 10))) = .ok (MAX_CHUNKS - 1) ∧
    handleMaxApps true 1 (.int MAX_CHUNKS) = .ok (MAX_CHUNKS - 1) ∧
    handleMaxApps true 10 (.int MAX_CHUNKS) = .ok (MAX_CHUNKS - 10) ∧
    handleMaxApps true 10 .other = .error .typeError ∧
    handleMaxApps true 10 (.callable (fun _ => some (-1))) = .error .valueError ∧
    handleMaxApps true 10 (.callable (fun _ => none)) = .error .valueError := by decide +kernel

/-! ### test/test_pretty.py -/

/-- test_pretty_filesieze, lines 12-29 -/
example :
    prettySize 0 = some "0B".toList ∧ prettySize 9898989898879 = some "9.0T".toList ∧ prettySize 5129898234 = some "4.78G".toList ∧
    prettySize 12898234 = some "12.3M".toList ∧ prettySize 989898 = some "966.7K".toList ∧ prettySize 128 = some "128.0B".toList ∧
    reversePretty "0B".toList = .ok 0 ∧ reversePretty "8B".toList = .ok 8 ∧ reversePretty "8K".toList = .ok 8192 ∧
    reversePretty "128M".toList = .ok 134217728 ∧ reversePretty "2G".toList = .ok 2147483648 ∧
    reversePretty "2T".toList = .ok 2199023255552 ∧ reversePretty "2P".toList = .error .valueError := by decide +kernel

/-! ### test/test_checksums.py, test/test_metacodecs.py, test/test_serializers.py -/

/-- test_checksusm_exist, lines 7-18 -/
example (hashlib : String → Bytes → Bytes) : (checksums hashlib).length = 9 ∧ (checksums hashlib).map Hash.name = checksumsAvail :=
  ⟨rfl, rfl⟩

/-- test_checksusm_are_sane, lines 21-42: the checksums that are modelled, of `b"\x23\x42\xbe\xef"` -/
example : zlibHash adler32 [0x23, 0x42, 0xbe, 0xef] = [0x13, 0x02, 0xc1, 0x03] ∧
    zlibHash crc32 [0x23, 0x42, 0xbe, 0xef] = [0xbd, 0xfa, 0x2e, 0xaa] := by decide +kernel

/-- test_codecs, lines 11-16 -/
example : codecsAvail = ["None", "zlib"] ∧ serializersAvail = [[74, 83, 79, 78]] := by decide

/-- the metadata of test_serializers, lines 15-24, of test/test_file_io.py, 104-111, and test/test_append.py, 239 -/
def testMetadata : Json := .obj [(pyStr "dtype", .str (pyStr "float64")), (pyStr "shape", .arr [.int 1024]), (pyStr "others", .arr [])]

theorem dumps_testMetadata : dumpsJson testMetadata = "{\"dtype\":\"float64\",\"shape\":[1024],\"others\":[]}".toList := by decide +kernel

/-- test_serializers, lines 15-24 -/
example : loadsJson (encodeUtf8 "{\"dtype\":\"float64\",\"shape\":[1024],\"others\":[]}".toList) = .ok testMetadata := by
  rw [← dumps_testMetadata]
  exact (C42_roundtrip testMetadata (by decide +kernel)).2 (by decide +kernel)

/-! ### test/test_log.py -/

/-- test_verbose, lines 8-14; test_error, lines 17-20; test_set_level_exception, lines 23-25 -/
example : (verbose "message".toList "MAXIMUM" {}).1 = .error .typeError ∧ (setLevel "NO_SUCH_LEVEL" {}).1 = .error .valueError ∧
    ((logError "error".toList : Proc Log Unit) {}).1 = .error (.systemExit 1) := by decide

/-! ### test/test_append.py -/

/-- test_recreate_metadata, lines 373-391 -/
example : (recreateMetadata Toy.jsonEnv mhdr { magic_format := some (encodeUtf8 "NOSUCHSERIALIZER".toList) }).map (fun _ => ()) = .error .noSuchSerializer ∧
    (recreateMetadata Toy.jsonEnv mhdr { codec := some "NOSUCHCODEC" }).map (fun _ => ()) = .error .noSuchCodec ∧
    (recreateMetadata Toy.jsonEnv mhdr { checksum := some "adler32" }).map (fun _ => ()) = .error .checksumLengthMismatch := by decide +kernel

/-- a dict of texts -/
def texts (l : List (String × String)) : List (PyStr × Json) := l.map (fun p => (pyStr p.1, .str (pyStr p.2)))
def withTexts (l : List (String × String)) : Json := match testMetadata with | .obj items => .obj (items ++ texts l) | j => j

/-- test_rewrite_metadata, lines 394-463: `metadata_args` (there with 1000 bytes instead of 150, and 100 more items instead of 10) -/
def rewriteArgs : MetadataArgs := { meta_checksum := "None", meta_codec := "None", max_meta_size := .int 150 }
def m1 : Json := withTexts [("container", "numpy"), ("data_origin", "LHC")]
def m2 : Json := withTexts [("container", "numpy"), ("data_origin", "LHC"), ("fluxcompensator", "back to the future")]
def m4 : Json := withTexts ([("container", "numpy"), ("data_origin", "LHC"), ("fluxcompensator", "back to the future"),
  ("hoverboard", "back to the future 2")] ++ (List.range 10).map (fun i => (toString i, toString i)))
/-- `codec=None, level=None` -/
def keep : RewriteArgs := { codec := none, level := none }
def written : Bytes := (writeMetadata Toy.jsonEnv (some testMetadata) rewriteArgs ({ data := [] } : FP)).2.data
def rewritten : Bytes := (rewriteMetadataFp Toy.jsonEnv (some m1) keep ({ data := written } : FP)).2.data

/-- lines 408-412 -/
example : written.length = METADATA_HEADER_LENGTH + 150 := by decide +kernel
/-- lines 420-429 -/
example : (rewriteMetadataFp Toy.jsonEnv (some m1) keep ({ data := written } : FP)).1 = .ok () ∧
    ((readMetadata Toy.jsonEnv ({ data := rewritten } : FP)).1.map (fun r => (r.1.map dumpsJson, r.2.meta_comp_size))) =
      .ok (some (dumpsJson m1), (dumpsJson m1).length) := by decide +kernel
/-- lines 431-434 -/
example : (rewriteMetadataFp Toy.jsonEnv (some m1) keep ({ data := rewritten } : FP)).1 = .error .noChangeInMetadata := by decide +kernel
/-- lines 436-441 -/
example : (rewriteMetadataFp Toy.jsonEnv (some m2) { keep with checksum := some "sha512" } ({ data := rewritten } : FP)).1 =
    .error .checksumLengthMismatch := by decide +kernel
/-- lines 443-447 -/
example : (rewriteMetadataFp Toy.jsonEnv (some m2) { codec := none } ({ data := rewritten } : FP)).1 = .ok () := by decide +kernel
/-- lines 449-454 -/
example : 150 < (dumpsJson m4).length ∧ (rewriteMetadataFp Toy.jsonEnv (some m4) keep ({ data := rewritten } : FP)).1 =
    .error .metadataSectionTooSmall := by decide +kernel

/-! ### test/test_numpy_io.py -/

/-- test_conv, lines 70-79 -/
example :
    conv (.arr [.arr [.str (pyStr "a"), .str (pyStr "f8")]]) = .ok (.list [.tuple [.str (pyStr "a"), .str (pyStr "f8")]]) ∧
    conv (.arr [.arr [.str (pyStr "a"), .str (pyStr "f8"), .int 2]]) =
      .ok (.list [.tuple [.str (pyStr "a"), .str (pyStr "f8"), .int 2]]) ∧
    conv (.arr [.arr [.str (pyStr "a"), .arr [.arr [.str (pyStr "b"), .str (pyStr "f8")]]]]) =
      .ok (.list [.tuple [.str (pyStr "a"), .list [.tuple [.str (pyStr "b"), .str (pyStr "f8")]]]]) := ⟨rfl, rfl, rfl⟩

/-! ### test_cmdline/*.cram -/

/-- `blpk` with this command line and these files -/
def run (c : CommandLine) (files : List (String × Bytes)) : Except Err Unit × World :=
  blpkMain Toy.env { truthy := fun _ => true, pformat := fun _ => [] } { max_threads := 256, ncores := 4 } "blpk".toList c
    ⟨fun x => files.lookup x, fun _ => true⟩

def sub (s : String) (items : List CliItem) : CommandLine := { subcommand := some (s, items) }
/-- exit status and lines printed -/
def shown (r : Except Err Unit × World) : Except Err Unit × List (List Char) := (r.1, r.2.log.out)

/-- test_zero_length_file.cram: the archive of an empty file has 140 bytes, and it decompresses to an empty file -/
example : ((run (sub "compress" [.positional "data.dat"]) [("data.dat", [])]).2.fs.files "data.dat.blp").map List.length = some 140 := by
  decide +kernel
example : (run (sub "decompress" [.positional "data.dat.blp", .positional "data.dat.dcmp"])
    [("data.dat.blp", ((run (sub "compress" [.positional "data.dat"]) [("data.dat", [])]).2.fs.files "data.dat.blp").getD [])]).2.fs.files
      "data.dat.dcmp" = some [] := by decide +kernel

/-- test_chunk_size.cram -/
example : shown (run (sub "compress" [.value "--chunk-size" "-1".toList, .positional "data.dat"]) [("data.dat", [1, 2, 3])]) =
    (.error (.systemExit 1), ["blpk: error: --chunk-size must be > 0".toList]) := by decide +kernel
example : (run (sub "compress" [.value "--chunk-size" "NO_SUCH_VALUE".toList, .positional "data.dat"]) [("data.dat", [1, 2, 3])]).1 =
    .error (.systemExit 1) := by decide +kernel
example : (checkChunkSizeOption "--chunk-size" "64K".toList {}).1 = .ok 65536 ∧
    (checkChunkSizeOption "--chunk-size" "65536".toList {}).1 = .ok 65536 ∧
    (checkChunkSizeOption "--chunk-size" "max".toList {}).1 = .ok BLOSC_MAX_BUFFERSIZE := by decide +kernel
example : calculateNchunks 160000000 (.int BLOSC_MAX_BUFFERSIZE) = .ok (1, 160000000, 160000000) ∧
    doublePrettySize 65536 = "64.0K (65536B)".toList ∧ doublePrettySize 160000000 = "152.59M (160000000B)".toList := by decide +kernel

/-- test_checksum.cram, test_codec.cram: usage errors -/
example : (run (sub "compress" [.value "--checksum" "NO_SUCH_CHECKSUM".toList, .positional "data.dat"]) [("data.dat", [1, 2, 3])]).1 =
    .error (.systemExit 2) ∧
    (run (sub "compress" [.value "--codec" "NO_SUCH_CODEC".toList, .positional "data.dat"]) [("data.dat", [1, 2, 3])]).1 =
    .error (.systemExit 2) := by decide +kernel

/-- test_force.cram -/
example : shown (run (sub "compress" [.positional "data.dat"]) [("data.dat", [1, 2, 3]), ("data.dat.blp", [])]) =
    (.error (.systemExit 1), ["blpk: error: output file 'data.dat.blp' exists!".toList]) := by decide +kernel
example : shown (run { globals := [.flag "--force"], subcommand := some ("compress", [.positional "data.dat"]) }
    [("data.dat", [1, 2, 3]), ("data.dat.blp", [])]) = (.ok (), []) := by decide +kernel
example : shown (run (sub "decompress" [.positional "data.dat.blp"]) [("data.dat", [1, 2, 3]), ("data.dat.blp", [])]) =
    (.error (.systemExit 1), ["blpk: error: output file 'data.dat' exists!".toList]) := by decide +kernel
example : shown (run (sub "decompress" [.positional "data.dat.bla", .positional "data.dat.dcmp"]) [("data.dat.bla", [])]) =
    (.error (.systemExit 1), ["blpk: error: input file 'data.dat.bla' does not end with '.blp'".toList]) := by decide +kernel
example : shown (run (sub "decompress" [.flag "--no-check-extension", .positional "data.dat.bla"]) [("data.dat.bla", [])]) =
    (.error (.systemExit 1), ["blpk: error: --no-check-extension requires use of <out_file>".toList]) := by decide +kernel

/-- test_info.cram: a file that is not there, a file that is not an archive -/
example : shown (run (sub "info" [.positional "data.dat.blp"]) []) =
    (.error (.systemExit 1), ["blpk: error: file 'data.dat.blp' does not exist!".toList]) := by decide +kernel
example : (run (sub "i" [.positional "data.dat"]) [("data.dat", List.replicate 64 0)]).1 = .error (.systemExit 1) := by decide +kernel

/-- test_threads.cram -/
example : shown (run { globals := [.value "-n" "257".toList] } []) =
    (.error (.systemExit 1), ["blpk: error: -n must be 1 <= n <= 256".toList]) := by decide +kernel

/-- test_verbose_debug.cram: chunking and sizes of the 160000000 bytes of data.dat, in chunks of 50M -/
example : (checkChunkSizeOption "--chunk-size" "50M".toList {}).1 = .ok 52428800 := by decide +kernel
example : calculateNchunks 160000000 (.int 52428800) = .ok (4, 52428800, 2713600) ∧ handleMaxApps true 4 DEFAULT_MAX_APP_CHUNKS = .ok 40 ∧
    doublePrettySize 52428800 = "50.0M (52428800B)".toList ∧ doublePrettySize 2713600 = "2.59M (2713600B)".toList ∧
    calculateNchunks 160000000 = .ok (153, 1048576, 616448) ∧ handleMaxApps true 153 DEFAULT_MAX_APP_CHUNKS = .ok 1530 ∧
    doublePrettySize 616448 = "602.0K (616448B)".toList ∧ doublePrettySize 1048576 = "1.0M (1048576B)".toList := by decide +kernel

end Bloscpack.RepoTests
