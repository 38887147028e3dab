import Verif.Model.Checksums
/-
Model of bloscpack/constants.py, bloscpack/metacodecs.py (names) and bloscpack/headers.py.
-/
namespace Bloscpack

/-! ### bloscpack/constants.py -/

/-- bloscpack/constants.py:14 -/
def FORMAT_VERSION : Int := 3
/-- bloscpack/constants.py:15, `b'blpk'` -/
def MAGIC : Bytes := [98, 108, 112, 107]
/-- bloscpack/constants.py:19 -/
def BLOSC_HEADER_LENGTH : Nat := 16
/-- bloscpack/constants.py:20 -/
def BLOSCPACK_HEADER_LENGTH : Nat := 32
/-- bloscpack/constants.py:21 -/
def METADATA_HEADER_LENGTH : Nat := 32
/-- bloscpack/constants.py:24 -/
def MAX_FORMAT_VERSION : Int := 255
/-- bloscpack/constants.py:25 -/
def MAX_CHUNKS : Int := 2 ^ 63 - 1
/-- bloscpack/constants.py:26 -/
def MAX_META_SIZE : Int := 2 ^ 32 - 1
/-- bloscpack/constants.py:28 -/
def MAX_CLEVEL : Int := 9
/-- `blosc.BLOSC_MAX_BUFFERSIZE` (2^31 - 1 - 16, cf. test/test_headers.py: `\xef\xff\xff\x7f`) -/
def BLOSC_MAX_BUFFERSIZE : Int := 2 ^ 31 - 1 - 16
/-- `blosc.BLOSC_MAX_TYPESIZE` -/
def BLOSC_MAX_TYPESIZE : Int := 255

/-! ### bloscpack/metacodecs.py -/

/-- `CODECS_AVAIL`, bloscpack/metacodecs.py:37-39 -/
def codecsAvail : List String := ["None", "zlib"]

/-- `check_valid_codec`, bloscpack/metacodecs.py:43-57 -/
def checkValidCodec (codec : String) : Except Err Unit :=
  if codec ∈ codecsAvail then .ok () else .error .noSuchCodec

/-! ### bloscpack/headers.py: checks -/

/-- A Python value as far as the dynamic type checks of the code distinguish it. -/
inductive PyVal where
  | int (i : Int)
  | other
  deriving DecidableEq, Repr

/-- `check_range`, bloscpack/headers.py:42-49 -/
def checkRange (value : PyVal) (min max : Int) : Except Err Unit :=
  match value with
  | .other => .error .typeError
  | .int v => if min ≤ v ∧ v ≤ max then .ok () else .error .valueError

/-- `_check_str` for a bytes argument, bloscpack/headers.py:52-57 (the `TypeError` branch is not modelled: the
argument is always bytes) -/
def checkStr (value : Bytes) (maxLen : Nat) : Except Err Unit :=
  if value.length > maxLen then .error .valueError else .ok ()

/-- `_pad_with_nulls`, bloscpack/headers.py:60-70 -/
def padWithNulls (data : Bytes) (len : Nat) : Bytes := data ++ List.replicate (len - data.length) 0

/-- `check_options`, bloscpack/headers.py:73-96 (options strings are lists of characters; the `TypeError` branch
for non-strings is not modelled) -/
def checkOptions (options : List Char) : Except Err Unit :=
  if ¬ options.length = 8 ∨ ¬ options.all (fun x => x == '0' || x == '1') then .error .valueError
  else .ok ()

/-- `check_options_zero`, bloscpack/headers.py:99-103 -/
def checkOptionsZero (options : List Char) : List Nat → Except Err Unit
  | [] => .ok ()
  | i :: is =>
    match options[i]? with
    | none => .error .indexError
    | some c => if c ≠ '0' then .error .valueError else checkOptionsZero options is

/-! ### bloscpack/headers.py: integer codecs -/

/-- `decode_uint8`, bloscpack/headers.py:106-110 (PY3: indexing bytes already gives the int) -/
def decodeUInt8 (byte : UInt8) : Int := byte.toNat
/-- `decode_uint32`, bloscpack/headers.py:113-114 -/
def decodeUInt32 (b : Bytes) : Except Err Int := unpackUnsigned 4 b
/-- `decode_int32`, bloscpack/headers.py:117-118 -/
def decodeInt32 (b : Bytes) : Except Err Int := unpackSigned 4 b
/-- `decode_int64`, bloscpack/headers.py:121-122 -/
def decodeInt64 (b : Bytes) : Except Err Int := unpackSigned 8 b
/-- `encode_uint8`, bloscpack/headers.py:136-137 -/
def encodeUInt8 (v : Int) : Except Err Bytes := packUnsigned 1 v
/-- `encode_uint32`, bloscpack/headers.py:140-141 -/
def encodeUInt32 (v : Int) : Except Err Bytes := packUnsigned 4 v
/-- `encode_int32`, bloscpack/headers.py:144-145 -/
def encodeInt32 (v : Int) : Except Err Bytes := packSigned 4 v
/-- `encode_int64`, bloscpack/headers.py:148-149 -/
def encodeInt64 (v : Int) : Except Err Bytes := packSigned 8 v

/-- `bin(n)[2:]`: binary digits of `n`, most significant first; `0` for zero. `fuel` bounds the digits (8 suffice
for a byte). -/
def binDigits : Nat → Nat → List Char
  | 0, _ => []
  | fuel + 1, n => if n < 2 then [if n = 1 then '1' else '0']
                   else binDigits fuel (n / 2) ++ [if n % 2 = 1 then '1' else '0']

/-- `s.rjust(n, '0')` -/
def rjust0 (s : List Char) (n : Nat) : List Char := List.replicate (n - s.length) '0' ++ s

/-- `decode_bitfield`, bloscpack/headers.py:125-126 -/
def decodeBitfield (byte : UInt8) : List Char := rjust0 (binDigits 8 byte.toNat) 8

/-- `int(s, 2)` of a string of zeros and ones -/
def parseBin (s : List Char) : Int := s.foldl (fun acc c => 2 * acc + (if c = '1' then 1 else 0)) 0

/-- `bytes.strip(b'\x00')` -/
def stripNulls (s : Bytes) : Bytes :=
  ((s.dropWhile (· == 0)).reverse.dropWhile (· == 0)).reverse

/-- `decode_magic_string`, bloscpack/headers.py:129-133 -/
def decodeMagicString (s : Bytes) : Bytes := stripNulls s

/-- `str(int(b))` for a bool -/
def boolChar (b : Bool) : Char := if b then '1' else '0'

/-- `create_options`, bloscpack/headers.py:152-161 -/
def createOptions (offsets metadata : Bool) : List Char :=
  [false, false, false, false, false, false, metadata, offsets].map boolChar

/-- `decode_options`, bloscpack/headers.py:164-181: (offsets, metadata) -/
def decodeOptions (options : List Char) : Except Err (Bool × Bool) := do
  checkOptions options
  checkOptionsZero options [0, 1, 2, 3, 4, 5]
  return (options[7]? == some '1', options[6]? == some '1')

/-- `create_metadata_options`, bloscpack/headers.py:184-186 -/
def createMetadataOptions : List Char := ['0','0','0','0','0','0','0','0']

/-- `decode_metadata_options`, bloscpack/headers.py:189-192 (returns the empty dict) -/
def decodeMetadataOptions (options : List Char) : Except Err Unit := do
  checkOptions options
  checkOptionsZero options [0, 1, 2, 3, 4, 5, 6, 7]

/-! ### Blosc chunk headers -/

/-- the dict returned by `decode_blosc_header` -/
structure BloscHeader where
  version : Int
  versionlz : Int
  flags : Int
  typesize : Int
  nbytes : Int
  blocksize : Int
  ctbytes : Int
  deriving DecidableEq, Repr

/-- Python indexing `buffer_[i]` -/
def byteAt (b : Bytes) (i : Nat) : Except Err UInt8 :=
  match b[i]? with
  | some x => .ok x
  | none => .error .indexError

/-- `decode_blosc_header`, bloscpack/headers.py:195-221 -/
def decodeBloscHeader (b : Bytes) : Except Err BloscHeader := do
  let version ← byteAt b 0
  let versionlz ← byteAt b 1
  let flags ← byteAt b 2
  let typesize ← byteAt b 3
  let nbytes ← decodeUInt32 (slice b 4 8)
  let blocksize ← decodeUInt32 (slice b 8 12)
  let ctbytes ← decodeUInt32 (slice b 12 16)
  return ⟨decodeUInt8 version, decodeUInt8 versionlz, decodeUInt8 flags, decodeUInt8 typesize,
          nbytes, blocksize, ctbytes⟩

/-- `CNAME_MAPPING`, bloscpack/constants.py:40-46 -/
def cnameMapping : Nat → Except Err String
  | 0 => .ok "blosclz"
  | 1 => .ok "lz4"
  | 2 => .ok "snappy"
  | 3 => .ok "zlib"
  | 4 => .ok "zstd"
  | _ => .error .keyError

/-- the dict returned by `decode_blosc_flags` -/
structure BloscFlags where
  byteShuffle : Bool
  pureMemcpy : Bool
  bitShuffle : Bool
  splitBlocks : Bool
  codec : String
  deriving DecidableEq, Repr

/-- `decode_blosc_flags`, bloscpack/headers.py:224-230 (`byte_` is the non-negative int from the header) -/
def decodeBloscFlags (byte : Nat) : Except Err BloscFlags := do
  let codec ← cnameMapping (byte >>> 5 &&& 7)
  return ⟨byte &&& 1 != 0, byte >>> 1 &&& 1 != 0, byte >>> 2 &&& 1 != 0, byte >>> 4 &&& 1 != 0, codec⟩

/-! ### Bloscpack header -/

/-- bloscpack/headers.py:233-334 (attributes) -/
structure BloscpackHeader where
  format_version : Int
  offsets : Bool
  metadata : Bool
  checksum : String
  typesize : Int
  chunk_size : Int
  last_chunk : Int
  nchunks : Int
  max_app_chunks : Int
  deriving DecidableEq, Repr

/-- The checks of `BloscpackHeader.__init__`, bloscpack/headers.py:279-295, in order -/
def BloscpackHeader.check (h : BloscpackHeader) : Except Err Unit := do
  checkRange (.int h.format_version) 0 MAX_FORMAT_VERSION
  checkValidChecksum h.checksum
  checkRange (.int h.typesize) 0 BLOSC_MAX_TYPESIZE
  checkRange (.int h.chunk_size) (-1) BLOSC_MAX_BUFFERSIZE
  checkRange (.int h.last_chunk) (-1) BLOSC_MAX_BUFFERSIZE
  checkRange (.int h.nchunks) (-1) MAX_CHUNKS
  checkRange (.int h.max_app_chunks) 0 MAX_CHUNKS
  if h.nchunks ≠ -1 then
    checkRange (.int (h.nchunks + h.max_app_chunks)) 0 MAX_CHUNKS
  else if h.max_app_chunks ≠ 0 then
    throw .valueError
  if h.chunk_size ≠ -1 ∧ h.last_chunk ≠ -1 ∧ h.last_chunk > h.chunk_size then
    throw .valueError

/-- `BloscpackHeader.__init__`, bloscpack/headers.py:268-317 -/
def BloscpackHeader.new (h : BloscpackHeader) : Except Err BloscpackHeader := do
  h.check
  return h

/-- `total_prospective_chunks`, bloscpack/headers.py:331-334 -/
def BloscpackHeader.totalProspectiveChunks (h : BloscpackHeader) : Option Int :=
  if h.nchunks ≥ 0 then some (h.nchunks + h.max_app_chunks) else none

/-- `l.index(x)`: raises `ValueError` if absent -/
def indexOf (l : List String) (x : String) : Except Err Int :=
  if x ∈ l then .ok (l.idxOf x) else .error .valueError

/-- `BloscpackHeader.encode`, bloscpack/headers.py:336-360 -/
def BloscpackHeader.encode (h : BloscpackHeader) : Except Err Bytes := do
  let format_version ← encodeUInt8 h.format_version
  let options ← encodeUInt8 (parseBin (createOptions h.offsets h.metadata))
  let checksum ← encodeUInt8 (← indexOf checksumsAvail h.checksum)
  let typesize ← encodeUInt8 h.typesize
  let chunk_size ← encodeInt32 h.chunk_size
  let last_chunk ← encodeInt32 h.last_chunk
  let nchunks ← encodeInt64 h.nchunks
  let max_app_chunks ← encodeInt64 h.max_app_chunks
  return MAGIC ++ format_version ++ options ++ checksum ++ typesize ++ chunk_size ++ last_chunk ++
    nchunks ++ max_app_chunks

/-- indexing a list of names, `CHECKSUMS_AVAIL[i]`: `IndexError` when out of range (`i ≥ 0` always here) -/
def nameAt (l : List String) (i : Nat) : Except Err String :=
  match l[i]? with
  | some s => .ok s
  | none => .error .indexError

/-- `BloscpackHeader.decode`, bloscpack/headers.py:362-400 -/
def BloscpackHeader.decode (b : Bytes) : Except Err BloscpackHeader := do
  if b.length ≠ BLOSCPACK_HEADER_LENGTH then throw .valueError
  if slice b 0 4 ≠ MAGIC then throw .valueError
  let (offsets, metadata) ← decodeOptions (decodeBitfield (← byteAt b 5))
  let format_version := decodeUInt8 (← byteAt b 4)
  let checksum ← nameAt checksumsAvail (← byteAt b 6).toNat
  let typesize := decodeUInt8 (← byteAt b 7)
  let chunk_size ← decodeInt32 (slice b 8 12)
  let last_chunk ← decodeInt32 (slice b 12 16)
  let nchunks ← decodeInt64 (slice b 16 24)
  let max_app_chunks ← decodeInt64 (slice b 24 32)
  BloscpackHeader.new { format_version, offsets, metadata, checksum, typesize, chunk_size, last_chunk,
                        nchunks, max_app_chunks }

/-! ### Metadata header -/

/-- bloscpack/headers.py:403-458 -/
structure MetadataHeader where
  magic_format : Bytes
  meta_options : List Char
  meta_checksum : String
  meta_codec : String
  meta_level : Int
  meta_size : Int
  max_meta_size : Int
  meta_comp_size : Int
  user_codec : Bytes
  deriving DecidableEq, Repr

/-- the checks of `MetadataHeader.__init__`, bloscpack/headers.py:416-424, in order -/
def MetadataHeader.check (h : MetadataHeader) : Except Err Unit := do
  checkStr h.magic_format 8
  checkOptions h.meta_options
  checkValidChecksum h.meta_checksum
  checkValidCodec h.meta_codec
  checkRange (.int h.meta_level) 0 MAX_CLEVEL
  checkRange (.int h.meta_size) 0 MAX_META_SIZE
  checkRange (.int h.max_meta_size) 0 MAX_META_SIZE
  checkRange (.int h.meta_comp_size) 0 MAX_META_SIZE
  checkStr h.user_codec 8

/-- `MetadataHeader.__init__`, bloscpack/headers.py:405-434 -/
def MetadataHeader.new (h : MetadataHeader) : Except Err MetadataHeader := do
  h.check
  return h

/-- `MetadataHeader.encode`, bloscpack/headers.py:460-474 -/
def MetadataHeader.encode (h : MetadataHeader) : Except Err Bytes := do
  let magic_format := padWithNulls h.magic_format 8
  let meta_options ← encodeUInt8 (parseBin h.meta_options)
  let meta_checksum ← encodeUInt8 (← indexOf checksumsAvail h.meta_checksum)
  let meta_codec ← encodeUInt8 (← indexOf codecsAvail h.meta_codec)
  let meta_level ← encodeUInt8 h.meta_level
  let meta_size ← encodeUInt32 h.meta_size
  let max_meta_size ← encodeUInt32 h.max_meta_size
  let meta_comp_size ← encodeUInt32 h.meta_comp_size
  let user_codec := padWithNulls h.user_codec 8
  return magic_format ++ meta_options ++ meta_checksum ++ meta_codec ++ meta_level ++ meta_size ++
    max_meta_size ++ meta_comp_size ++ user_codec

/-- `MetadataHeader.decode`, bloscpack/headers.py:476-492 -/
def MetadataHeader.decode (b : Bytes) : Except Err MetadataHeader := do
  if b.length ≠ 32 then throw .valueError
  let magic_format := decodeMagicString (slice b 0 8)
  let meta_options := decodeBitfield (← byteAt b 8)
  let meta_checksum ← nameAt checksumsAvail (← byteAt b 9).toNat
  let meta_codec ← nameAt codecsAvail (← byteAt b 10).toNat
  let meta_level := decodeUInt8 (← byteAt b 11)
  let meta_size ← decodeUInt32 (slice b 12 16)
  let max_meta_size ← decodeUInt32 (slice b 16 20)
  let meta_comp_size ← decodeUInt32 (slice b 20 24)
  let user_codec := decodeMagicString (slice b 24 32)
  MetadataHeader.new { magic_format, meta_options, meta_checksum, meta_codec, meta_level, meta_size,
                       max_meta_size, meta_comp_size, user_codec }

end Bloscpack
