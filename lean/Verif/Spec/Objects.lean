import Verif.Spec.Header
import Verif.Model.Headers
/-
The specified constraints and bytes, for header objects.
-/
namespace Bloscpack

/-- the constraints on a header object -/
def BloscpackHeader.OK (h : BloscpackHeader) : Prop :=
  Spec.HeaderFieldsOK h.format_version h.typesize h.chunk_size h.last_chunk h.nchunks h.max_app_chunks h.checksum

/-- the specified bytes of a header object -/
def BloscpackHeader.bytes (h : BloscpackHeader) : Bytes :=
  Spec.headerBytes h.format_version h.offsets h.metadata h.checksum h.typesize h.chunk_size h.last_chunk h.nchunks
    h.max_app_chunks

/-- the constraints on a metadata header object -/
def MetadataHeader.OK (h : MetadataHeader) : Prop :=
  Spec.MetaFieldsOK h.magic_format h.meta_options h.meta_checksum h.meta_codec h.meta_level h.meta_size h.max_meta_size
    h.meta_comp_size h.user_codec

/-- the specified bytes of a metadata header object -/
def MetadataHeader.bytes (h : MetadataHeader) : Bytes :=
  Spec.metaHeaderBytes h.magic_format h.meta_options h.meta_checksum h.meta_codec h.meta_level h.meta_size
    h.max_meta_size h.meta_comp_size h.user_codec

end Bloscpack
