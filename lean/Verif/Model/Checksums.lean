import Verif.Model.Prim
/-
Model of bloscpack/checksums.py.
-/
namespace Bloscpack

/-- `zlib.adler32(data)` (RFC 1950), called at bloscpack/checksums.py:58 -/
def adlerStep (s : Nat × Nat) (b : UInt8) : Nat × Nat :=
  let a := (s.1 + b.toNat) % 65521
  (a, (s.2 + a) % 65521)

def adler32 (data : Bytes) : Nat :=
  let s := data.foldl adlerStep (1, 0)
  s.2 * 65536 + s.1

/-- one bit of `zlib.crc32` (reflected polynomial 0xEDB88320, RFC 1952) -/
def crcBit (c : BitVec 32) : BitVec 32 :=
  if c.getLsbD 0 then (c >>> 1) ^^^ 0xEDB88320#32 else c >>> 1

def crcByte (c : BitVec 32) (b : UInt8) : BitVec 32 :=
  let x := c ^^^ (b.toBitVec.setWidth 32)
  crcBit (crcBit (crcBit (crcBit (crcBit (crcBit (crcBit (crcBit x)))))))

/-- `zlib.crc32(data)`, called at bloscpack/checksums.py:59 (bitwise instead of table driven, same function) -/
def crc32 (data : Bytes) : Nat :=
  ((data.foldl crcByte 0xFFFFFFFF#32) ^^^ 0xFFFFFFFF#32).toNat

/-- `zlib_hash`, bloscpack/checksums.py:40-47. The `& 0xffffffff` keeps the low 32 bits; `struct.pack('<I', …)`
of such a value cannot fail. -/
def zlibHash (f : Bytes → Nat) (data : Bytes) : Bytes := leEncode 4 (f data % 2 ^ 32)

/-- bloscpack/checksums.py:15-37: `Hash` objects -/
structure Hash where
  name : String
  size : Nat
  function : Bytes → Bytes

/-- `CHECKSUMS`, bloscpack/checksums.py:57-66. The hashlib functions (md5 … sha512) are the parameter `hashlib`,
their `digest_size`s are the standard ones. -/
def checksums (hashlib : String → Bytes → Bytes) : List Hash :=
  [ ⟨"None", 0, fun _ => []⟩,
    ⟨"adler32", 4, zlibHash adler32⟩,
    ⟨"crc32", 4, zlibHash crc32⟩,
    ⟨"md5", 16, hashlib "md5"⟩,
    ⟨"sha1", 20, hashlib "sha1"⟩,
    ⟨"sha224", 28, hashlib "sha224"⟩,
    ⟨"sha256", 32, hashlib "sha256"⟩,
    ⟨"sha384", 48, hashlib "sha384"⟩,
    ⟨"sha512", 64, hashlib "sha512"⟩ ]

/-- `CHECKSUMS_AVAIL`, bloscpack/checksums.py:67 -/
def checksumsAvail : List String :=
  ["None", "adler32", "crc32", "md5", "sha1", "sha224", "sha256", "sha384", "sha512"]

/-- `CHECKSUMS_LOOKUP[name]`, bloscpack/checksums.py:68 -/
def checksumLookup (hashlib : String → Bytes → Bytes) (name : String) : Except Err Hash :=
  match (checksums hashlib).find? (fun h => h.name == name) with
  | some h => .ok h
  | none => .error .keyError

/-- `check_valid_checksum`, bloscpack/checksums.py:71-85 -/
def checkValidChecksum (checksum : String) : Except Err Unit :=
  if checksum ∈ checksumsAvail then .ok () else .error .noSuchChecksum

end Bloscpack
