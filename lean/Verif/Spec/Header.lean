import Verif.Spec.Bytes
/-
The constraints and the byte layout of the two headers, transcribed from README.rst ("Description of the header",
"Description of the metadata section") and independent of the encoding/decoding functions.
-/
namespace Bloscpack.Spec

/-- The documented checksums, in the order of their numbers 0..8. -/
def checksumNames : List String :=
  ["None", "adler32", "crc32", "md5", "sha1", "sha224", "sha256", "sha384", "sha512"]

/-- documented digest sizes, in the order of the names -/
def checksumSizes : List Nat := [0, 4, 4, 16, 20, 28, 32, 48, 64]

/-- the size of the digest of a named checksum -/
def digestSize (name : String) : Nat := (checksumSizes[checksumNames.idxOf name]?).getD 0

/-- The documented metadata codecs, in the order of their numbers. -/
def codecNames : List String := ["None", "zlib"]

/-- The constraints on the fields of a bloscpack header. -/
def HeaderFieldsOK (version typesize chunkSize lastChunk nchunks maxApp : Int) (checksum : String) : Prop :=
  (0 ≤ version ∧ version ≤ 255) ∧ checksum ∈ checksumNames ∧ (0 ≤ typesize ∧ typesize ≤ 255) ∧
  (-1 ≤ chunkSize ∧ chunkSize ≤ 2 ^ 31 - 17) ∧ (-1 ≤ lastChunk ∧ lastChunk ≤ 2 ^ 31 - 17) ∧
  (-1 ≤ nchunks ∧ nchunks ≤ 2 ^ 63 - 1) ∧ (0 ≤ maxApp ∧ maxApp ≤ 2 ^ 63 - 1) ∧
  (nchunks ≠ -1 → nchunks + maxApp ≤ 2 ^ 63 - 1) ∧ (nchunks = -1 → maxApp = 0) ∧
  (chunkSize ≠ -1 → lastChunk ≠ -1 → lastChunk ≤ chunkSize)

/-- The options byte: bit 0 offsets, bit 1 metadata, the rest reserved and zero. -/
def optionsByte (offsets metadata : Bool) : UInt8 :=
  (if offsets then 1 else 0) + (if metadata then 2 else 0)

/-- The 32 bytes of a bloscpack header:
`|-0-|-1-|-2-|-3-|-4-|-5-|-6-|-7-|-8-|-9-|-A-|-B-|-C-|-D-|-E-|-F-|`
`| b   l   p   k | ^ | ^ | ^ | ^ |   chunk-size  |  last-chunk   |`  (version, options, checksum, typesize)
`|            nchunks            |        max-app-chunks         |` -/
def headerBytes (version : Int) (offsets metadata : Bool) (checksum : String) (typesize chunkSize lastChunk nchunks
    maxApp : Int) : List UInt8 :=
  [0x62, 0x6c, 0x70, 0x6b] ++ leBytes 1 version ++ [optionsByte offsets metadata] ++
  [UInt8.ofNat (checksumNames.idxOf checksum)] ++ leBytes 1 typesize ++ leBytes 4 chunkSize ++ leBytes 4 lastChunk ++
  leBytes 8 nchunks ++ leBytes 8 maxApp

/-- The constraints on the fields of a metadata header. -/
def MetaFieldsOK (magic : List UInt8) (options : List Char) (checksum codec : String)
    (level size maxSize compSize : Int) (userCodec : List UInt8) : Prop :=
  magic.length ≤ 8 ∧ (options.length = 8 ∧ ∀ c ∈ options, c = '0' ∨ c = '1') ∧ checksum ∈ checksumNames ∧
  codec ∈ codecNames ∧ (0 ≤ level ∧ level ≤ 9) ∧ (0 ≤ size ∧ size ≤ 2 ^ 32 - 1) ∧
  (0 ≤ maxSize ∧ maxSize ≤ 2 ^ 32 - 1) ∧ (0 ≤ compSize ∧ compSize ≤ 2 ^ 32 - 1) ∧ userCodec.length ≤ 8

/-- value of a string of binary digits, most significant first -/
def bitsValue : List Char → Nat
  | [] => 0
  | c :: cs => (if c = '1' then 2 ^ cs.length else 0) + bitsValue cs

/-- a string padded with NULs to 8 bytes -/
def padded8 (s : List UInt8) : List UInt8 := (s ++ [0, 0, 0, 0, 0, 0, 0, 0]).take 8

/-- The 32 bytes of a metadata header:
`|-0-|-1-|-2-|-3-|-4-|-5-|-6-|-7-|-8-|-9-|-A-|-B-|-C-|-D-|-E-|-F-|`
`|         magic-format          | ^ | ^ | ^ | ^ |   meta-size   |`  (options, checksum, codec, level)
`| max-meta-size |meta-comp-size |            user-codec         |` -/
def metaHeaderBytes (magic : List UInt8) (options : List Char) (checksum codec : String)
    (level size maxSize compSize : Int) (userCodec : List UInt8) : List UInt8 :=
  padded8 magic ++ [UInt8.ofNat (bitsValue options)] ++ [UInt8.ofNat (checksumNames.idxOf checksum)] ++
  [UInt8.ofNat (codecNames.idxOf codec)] ++ leBytes 1 level ++ leBytes 4 size ++ leBytes 4 maxSize ++
  leBytes 4 compSize ++ padded8 userCodec

end Bloscpack.Spec
