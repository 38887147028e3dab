import Verif.Model.Args
/-
The libraries the code calls: blosc, zlib, hashlib, json. They are a parameter of the model; what is assumed of
them is the structure `Env.Laws` (a hypothesis of the theorems that need it, never an axiom).
-/
namespace Bloscpack

/-- External libraries. `μ` is the type of metadata objects other than Python's `None`; metadata values are
`Option μ`, with `none` for `None`/JSON `null`. -/
structure Env (μ : Type) where
  /-- `blosc.compress(data, **blosc_args)`, bloscpack/abstract_io.py:26-27 -/
  compress : Bytes → BloscArgs → Except Err Bytes
  /-- `blosc.decompress(data)` -/
  decompress : Bytes → Except Err Bytes
  /-- `blosc.compressor_list()` -/
  cnames : List String
  /-- `getattr(hashlib, name)(data).digest()`, bloscpack/checksums.py:50-54 -/
  hashlib : String → Bytes → Bytes
  /-- `zlib.compress(data, level)`, bloscpack/metacodecs.py:38 -/
  zcompress : Bytes → Int → Except Err Bytes
  /-- `zlib.decompress(data)`, bloscpack/metacodecs.py:38 -/
  zdecompress : Bytes → Except Err Bytes
  /-- `json.dumps(x, separators=(',', ':'))`, bloscpack/serializers.py:36: a `str` -/
  dumps : Option μ → Except Err (List Char)
  /-- `json.loads(data.decode())`, bloscpack/serializers.py:37, bloscpack/file_io.py:231-233 -/
  loads : Bytes → Except Err (Option μ)
  /-- Python `==` between metadata objects -/
  metaEq : Option μ → Option μ → Bool

/-- `SERIALIZERS_AVAIL`, bloscpack/serializers.py:36-39: the magic formats, only `b'JSON'` -/
def serializersAvail : List Bytes := [[74, 83, 79, 78]]

/-- `SERIALIZERS_LOOKUP[magic_format]`: `KeyError` for unknown ones -/
def serializerLookup (magic : Bytes) : Except Err Unit :=
  if magic ∈ serializersAvail then .ok () else .error .keyError

/-- `check_valid_serializer`, bloscpack/serializers.py:42-56 -/
def checkValidSerializer (magic : Bytes) : Except Err Unit :=
  if magic ∈ serializersAvail then .ok () else .error .noSuchSerializer

/-- `str.encode()` (UTF-8) -/
def encodeUtf8 (s : List Char) : Bytes := s.flatMap String.utf8EncodeChar

variable {μ : Type}

/-- `CODECS_LOOKUP[name].compress(data, level)`, bloscpack/metacodecs.py:31-32, 37-40 -/
def codecCompress (E : Env μ) (name : String) (data : Bytes) (level : Int) : Except Err Bytes :=
  if name = "None" then .ok data
  else if name = "zlib" then E.zcompress data level
  else .error .keyError

/-- `CODECS_LOOKUP[name].decompress(data)`, bloscpack/metacodecs.py:34-35, 37-40 -/
def codecDecompress (E : Env μ) (name : String) (data : Bytes) : Except Err Bytes :=
  if name = "None" then .ok data
  else if name = "zlib" then E.zdecompress data
  else .error .keyError

/-- the arguments blosc accepts: `typesize` 1..255, `clevel` 0..9, `shuffle` none/byte/bit, a known codec name -/
def BloscArgs.Valid (E : Env μ) (a : BloscArgs) : Prop :=
  1 ≤ a.typesize ∧ a.typesize ≤ 255 ∧ 0 ≤ a.clevel ∧ a.clevel ≤ 9 ∧ 0 ≤ a.shuffle ∧ a.shuffle ≤ 2 ∧
    a.cname ∈ E.cnames

instance (E : Env μ) (a : BloscArgs) : Decidable (a.Valid E) := by unfold BloscArgs.Valid; infer_instance

/-- digest sizes of the hashlib functions -/
def hashlibSize : String → Option Nat
  | "md5" => some 16
  | "sha1" => some 20
  | "sha224" => some 28
  | "sha256" => some 32
  | "sha384" => some 48
  | "sha512" => some 64
  | _ => none

/-- What the theorems assume of the libraries. -/
structure Env.Laws (E : Env μ) : Prop where
  /-- blosc compresses everything up to its maximum buffer size when given valid arguments -/
  compress_total : ∀ d a, a.Valid E → (d.length : Int) ≤ BLOSC_MAX_BUFFERSIZE → ∃ c, E.compress d a = .ok c
  /-- blosc rejects invalid arguments and too large inputs -/
  compress_reject : ∀ d a c, E.compress d a = .ok c → a.Valid E ∧ (d.length : Int) ≤ BLOSC_MAX_BUFFERSIZE
  /-- compressed buffers start with the 16 byte blosc header, whose bytes 12–15 hold the length of the buffer;
  compression adds at most these 16 bytes; decompression is its inverse -/
  compress_header : ∀ d a c, E.compress d a = .ok c → 16 ≤ c.length ∧ c.length ≤ d.length + 16 ∧
    leDecode (slice c 12 16) = c.length
  decompress_compress : ∀ d a c, E.compress d a = .ok c → E.decompress c = .ok d
  /-- blosc refuses to decompress a buffer whose length is not the one in its header -/
  decompress_length : ∀ c d, E.decompress c = .ok d → 16 ≤ c.length ∧ leDecode (slice c 12 16) = c.length
  /-- zlib -/
  zdecompress_zcompress : ∀ d l c, E.zcompress d l = .ok c → E.zdecompress c = .ok d
  zcompress_total : ∀ d l, 0 ≤ l → l ≤ 9 → ∃ c, E.zcompress d l = .ok c
  /-- hashlib digests have their standard sizes -/
  hashlib_length : ∀ name n d, hashlibSize name = some n → (E.hashlib name d).length = n
  /-- json: output is ASCII and parses back to the same object -/
  dumps_ascii : ∀ m s, E.dumps m = .ok s → ∀ c ∈ s, c.toNat < 128
  loads_dumps : ∀ m s, E.dumps m = .ok s → E.loads (encodeUtf8 s) = .ok m

end Bloscpack
