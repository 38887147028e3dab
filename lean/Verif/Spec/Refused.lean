import Verif.Spec.Settings
import Verif.Spec.Numpy
import Verif.Model.Numpy
/-
Why a packing is refused: the reasons in the order in which they are looked for, each with its exception.
-/
namespace Bloscpack.Spec
variable {μ : Type}

/-- How `size` bytes are cut: into `n` chunks of `c` bytes, the last one possibly shorter; nothing is one chunk of no bytes. -/
def CutInto (size : Nat) (cs : ChunkSizeArg) (n c : Int) : Prop :=
  (size = 0 ∧ n = 1 ∧ c = 0) ∨
  (0 < size ∧ ∃ v, RequestedSize cs v ∧ 1 ≤ v ∧ v ≤ 2 ^ 31 - 17 ∧ c = min v size ∧ (n - 1) * c < size ∧ size ≤ n * c)

/-- The chunk size is refused: there is something to cut, and it is neither a number nor a text, or a text that cannot be read, or
out of range. -/
def ChunkSizeRefused (size : Nat) (cs : ChunkSizeArg) (e : Err) : Prop :=
  0 < size ∧
  ((cs = .other ∧ e = .typeError) ∨
   (∃ s, cs = .str s ∧ reversePretty s = .error e) ∨
   (∃ v, RequestedSize cs v ∧ ¬ (1 ≤ v ∧ v ≤ 2 ^ 31 - 17) ∧ e = .valueError))

/-- The room for appended chunks is refused: it matters only with offsets. -/
def AppsRefused (n : Int) (b : BloscpackArgs) (e : Err) : Prop :=
  b.offsets = true ∧
  ((b.max_app_chunks = .other ∧ e = .typeError) ∨
   (∃ i, b.max_app_chunks = .int i ∧ ¬ (0 ≤ i ∧ i ≤ 2 ^ 63 - 1) ∧ e = .valueError) ∨
   (∃ f, b.max_app_chunks = .callable f ∧ (∀ w, f n = some w → w < 0) ∧ e = .valueError))

/-- The settings are refused: the room for appended chunks, then the checksum, then the typesize. -/
def SettingsRefused (n : Int) (a : BloscArgs) (b : BloscpackArgs) (e : Err) : Prop :=
  AppsRefused n b e ∨
  ((∀ e', ¬ AppsRefused n b e') ∧
    ((b.checksum ∉ checksumNames ∧ e = .noSuchChecksum) ∨
     (b.checksum ∈ checksumNames ∧ ¬ (0 ≤ a.typesize ∧ a.typesize ≤ 255) ∧ e = .valueError)))

/-- The form in which serialized metadata would be stored: the compressed one unless it is larger. -/
def Stored (E : Env μ) (m : MetadataArgs) (raw body : Bytes) : Prop :=
  (m.meta_codec = "None" ∧ body = raw) ∨
  (m.meta_codec = "zlib" ∧ ∃ z, E.zcompress raw m.meta_level = .ok z ∧ body = if z.length ≤ raw.length then z else raw)

/-- The metadata are refused: the name of the serializer is unknown; or the serializer raises; or the name of the codec is unknown;
or the codec raises; or no room can be worked out; or the room is too small for the stored form; or the name of the checksum is
unknown; or a number does not fit its field. -/
def MetadataRefused (E : Env μ) (md : Option μ) (m : MetadataArgs) (e : Err) : Prop :=
  (m.magic_format ≠ [74, 83, 79, 78] ∧ e = .keyError) ∨
  (m.magic_format = [74, 83, 79, 78] ∧
    (E.dumps md = .error e ∨
     ∃ s, E.dumps md = .ok s ∧
      ((m.meta_codec ∉ codecNames ∧ e = .keyError) ∨
       (m.meta_codec = "zlib" ∧ E.zcompress (encodeUtf8 s) m.meta_level = .error e) ∨
       ∃ body, Stored E m (encodeUtf8 s) body ∧
        ((m.max_meta_size = .other ∧ e = .unboundLocalError) ∨
         ∃ room, (m.max_meta_size = .int room ∨ ∃ f, m.max_meta_size = .callable f ∧ f s.length = room) ∧
          ((room < body.length ∧ e = .metadataSectionTooSmall) ∨
           ((body.length : Int) ≤ room ∧
            ((m.meta_checksum ∉ checksumNames ∧ e = .noSuchChecksum) ∨
             (m.meta_checksum ∈ checksumNames ∧
               (¬ (0 ≤ m.meta_level ∧ m.meta_level ≤ 9) ∨ 2 ^ 32 - 1 < (s.length : Int) ∨ 2 ^ 32 - 1 < room) ∧
               e = .valueError))))))))

/-- Packing is refused: because of the chunk size; or the settings; or the metadata, if there are any; or because blosc refuses a chunk,
the first such chunk deciding. -/
def PackRefused (E : Env μ) (data : Bytes) (cs : ChunkSizeArg) (md : Option μ) (a : BloscArgs) (b : BloscpackArgs) (m : MetadataArgs)
    (e : Err) : Prop :=
  ChunkSizeRefused data.length cs e ∨
  ∃ n c, CutInto data.length cs n c ∧
    (SettingsRefused n a b e ∨
     ((∀ e', ¬ SettingsRefused n a b e') ∧
      ((md.isSome ∧ MetadataRefused E md m e) ∨
       ((md.isSome → ∀ e', ¬ MetadataRefused E md m e') ∧
        ∃ k : Nat, (k : Int) < n ∧ E.compress ((data.drop (k * c.toNat)).take c.toNat) a = .error e ∧
          ∀ j < k, ∃ z, E.compress ((data.drop (j * c.toNat)).take c.toNat) a = .ok z))))

/-- Packing an array is refused: because it contains objects; or its type has no description; or for a reason to refuse its bytes
(with the size of its items as typesize), where, before anything is compressed, the size of the items must not be zero and must divide the size
of the chunks. -/
def ArrayRefused (E : Env Json) (lib : NumpyLib) (arr : NdArray) (content : Bytes) (cs : ChunkSizeArg) (a : BloscArgs) (b : BloscpackArgs)
    (m : MetadataArgs) (e : Err) : Prop :=
  (Mentions (pyStr "|O") arr.dtype ∧ e = .objectNumpyArrayRejection) ∨
  (¬ Mentions (pyStr "|O") arr.dtype ∧
    (ndarrayMeta lib arr = .error e ∨
     ∃ md, ndarrayMeta lib arr = .ok md ∧
      (ChunkSizeRefused content.length cs e ∨
       ∃ n c, CutInto content.length cs n c ∧
        (SettingsRefused n { a with typesize := arr.itemsize } b e ∨
         ((∀ e', ¬ SettingsRefused n { a with typesize := arr.itemsize } b e') ∧
          (MetadataRefused E (some md) m e ∨
           ((∀ e', ¬ MetadataRefused E (some md) m e') ∧
            ((arr.itemsize = 0 ∧ e = .zeroDivisionError) ∨
             (arr.itemsize ≠ 0 ∧ ¬ (arr.itemsize : Int) ∣ c ∧ e = .chunkSizeTypeSizeMismatch) ∨
             (arr.itemsize ≠ 0 ∧ (arr.itemsize : Int) ∣ c ∧
              ∃ k : Nat, (k : Int) < n ∧ E.compress ((content.drop (k * c.toNat)).take c.toNat) { a with typesize := arr.itemsize } = .error e ∧
                ∀ j < k, ∃ z, E.compress ((content.drop (j * c.toNat)).take c.toNat) { a with typesize := arr.itemsize } = .ok z)))))))))

end Bloscpack.Spec
