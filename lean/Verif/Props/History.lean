import Verif.Spec.History
import Verif.Props.Rewrite
/-
C14, C15, C17, C18: any history of appends and metadata rewrites.
-/
namespace Bloscpack
variable {μ : Type}

/-- what a history preserves -/
structure Kept (E : Env μ) (F F' : File μ) : Prop where
  conf : F'.Conforming E
  nonnull : F'.NoNull
  total : F'.header.nchunks + F'.header.max_app_chunks = F.header.nchunks + F.header.max_app_chunks
  chunk_size : F'.header.chunk_size = F.header.chunk_size
  offsets : F'.header.offsets = F.header.offsets
  front : (F'.front E).length = (F.front E).length
  grows : F.data.length ≤ F'.data.length

theorem history_kept {E : Env μ} (L : E.Laws) {d d' : Bytes} {log : List (Op μ × Bool)} (h : Spec.History E d log d') :
    ∀ F : File μ, d = F.bytes E → F.Conforming E → F.NoNull →
      ∃ F' : File μ, d' = F'.bytes E ∧ Kept E F F' ∧ (F'.data, F'.metadata) = Spec.effect (F.data, F.metadata) log := by
  induction h with
  | nil d =>
    intro F hd hc hnn
    exact ⟨F, hd, ⟨hc, hnn, rfl, rfl, rfl, rfl, Nat.le_refl _⟩, rfl⟩
  | @step d d' op ok log d'' run size rest ih =>
    rintro F rfl hc hnn
    have key : ∃ F1 : File μ, d' = F1.bytes E ∧ Kept E F F1 ∧ (F1.data, F1.metadata) = Spec.effect (F.data, F.metadata) [(op, ok)] := by
      cases op with
      | append new args =>
        simp only [Op.run] at run
        generalize hr : appendFp E { data := new } new.length args { data := F.bytes E } = r at run
        obtain ⟨r, fp⟩ := r
        cases r with
        | error e =>
          simp only [Except.toBool, Prod.mk.injEq] at run
          obtain ⟨rfl, rfl⟩ := run
          rw [(C16_failed_append_untouched E L F hc hnn new args e fp hr size).1]
          exact ⟨F, rfl, ⟨hc, hnn, rfl, rfl, rfl, rfl, Nat.le_refl _⟩, rfl⟩
        | ok k =>
          simp only [Except.toBool, Prod.mk.injEq] at run
          obtain ⟨rfl, rfl⟩ := run
          obtain ⟨-, F', g1, g2, g3, g4, g5, -, g6, g7, g8, g9, -, g10, -⟩ := C13_append E L F hc hnn new args k fp hr
          have ho : F.header.offsets = true := by
            cases ho : F.header.offsets with
            | true => rfl
            | false => have := append_no_offsets L hc.toPre ho { data := new } new.length args []; rw [hr] at this; cases this
          exact ⟨F', g1, ⟨g2, g3, by omega, g8, by rw [g9, ho], g10, by rw [g4]; simp⟩, by rw [g4, g5]; rfl⟩
      | rewrite md x =>
        simp only [Op.run] at run
        generalize hr : rewriteMetadata E (some md) x { data := F.bytes E } = r at run
        obtain ⟨r, fp⟩ := r
        cases r with
        | error e =>
          simp only [Except.toBool, Prod.mk.injEq] at run
          obtain ⟨rfl, rfl⟩ := run
          rw [(C11_failed_rewrite_untouched E _ _ _ _ _ hr).1]
          exact ⟨F, rfl, ⟨hc, hnn, rfl, rfl, rfl, rfl, Nat.le_refl _⟩, rfl⟩
        | ok k =>
          simp only [Except.toBool, Prod.mk.injEq] at run
          obtain ⟨rfl, rfl⟩ := run
          obtain ⟨-, -, -, -, F', g1, g2, g3, g4, g5, g6, -, g7, g8, -⟩ := C10_rewrite E L F hc _ _ _ hr
          refine ⟨F', g1, ⟨g2, ?_, by rw [g5], by rw [g5], by rw [g5], ?_, by rw [g3]; exact Nat.le_refl _⟩, by rw [g3, g4]; rfl⟩
          · intro h; rw [g4] at h; cases h
          · simp only [File.front, List.length_append, g5, g6, g8]
    obtain ⟨F1, h1, h2, h3⟩ := key
    obtain ⟨F', h4, h5, h6⟩ := ih F1 h1 h2.conf h2.nonnull
    refine ⟨F', h4, ⟨h5.conf, h5.nonnull, h5.total.trans h2.total, h5.chunk_size.trans h2.chunk_size,
      h5.offsets.trans h2.offsets, h5.front.trans h2.front, Nat.le_trans h2.grows h5.grows⟩, ?_⟩
    rw [h6, h3]
    cases op <;> cases ok <;> rfl

/-! ### C14 -/

/-- C14: starting from any packed file, whatever appends and metadata rewrites are tried in whatever order and with
whatever arguments, the file unpacks to the packed data followed by the contents of the successful appends, and to the
metadata last successfully written. -/
theorem C14_history (E : Env μ) (L : E.Laws) (data : Bytes) (cs : ChunkSizeArg) (md : Option μ) (a : BloscArgs)
    (b : BloscpackArgs) (m : MetadataArgs) (out : Bytes) (h : packBytesToBytes E data cs md a b m = .ok out)
    (log : List (Op μ × Bool)) (d : Bytes) (hist : Spec.History E out log d) :
    unpackBytesFromBytes E d = .ok (Spec.effect (data, md) log) := by
  obtain ⟨F, hF, hc, hnn, hd, hm, -, -⟩ := packed_appendable E L _ _ _ _ _ _ _ h
  obtain ⟨F', h1, h2, h3⟩ := history_kept L hist F hF hc hnn
  rw [h1, unpack_conforming L h2.conf.toValid, h3, hd, hm]

/-- a history with two appends, one of which fails, and a rewrite -/
example : (packBytesToBytes Toy.env [1, 2, 3] (.int 2) (some 5) {} { max_app_chunks := .int 1 }
      { max_meta_size := .int 12 }).toOption.map (fun out =>
    let s1 := Op.run Toy.env out (.append [4, 5] {})
    let s2 := Op.run Toy.env s1.2 (.append [6, 7] {})
    let s3 := Op.run Toy.env s2.2 (.rewrite 8 {})
    ((s1.1, s2.1, s3.1), (unpackBytesFromBytes Toy.env s3.2).toOption)) =
      some ((true, false, true), some ([1, 2, 3, 4, 5], some 8)) := by
  decide +kernel

namespace Toy
/-- three bytes packed in chunks of two, one chunk reserved -/
def packed : Bytes := (packBytesToBytes env [1, 2, 3] (.int 2) (some 5) {} { max_app_chunks := .int 1 }
  { max_meta_size := .int 12 }).toOption.getD []
/-- an append, an append for which there is no space, a rewrite -/
def ops : List (Op Nat) := [.append [4, 5] {}, .append [6, 7] {}, .rewrite 8 {}]
def packed1 : Bytes := (Op.run env packed (.append [4, 5] {})).2
def packed2 : Bytes := (Op.run env packed1 (.append [6, 7] {})).2
def packed3 : Bytes := (Op.run env packed2 (.rewrite 8 {})).2
theorem packed_ok : packBytesToBytes env [1, 2, 3] (.int 2) (some 5) {} { max_app_chunks := .int 1 }
    { max_meta_size := .int 12 } = .ok packed := by decide +kernel
theorem history : Spec.History env packed (ops.zip [true, false, true]) packed3 :=
  .step (d' := packed1) (by decide +kernel) (by decide +kernel)
    (.step (d' := packed2) (by decide +kernel) (by decide +kernel)
      (.step (d' := packed3) (by decide +kernel) (by decide +kernel) (.nil _)))
end Toy

/-- the hypotheses of the theorems of this file are met by this history; what C14 says about it -/
example : unpackBytesFromBytes Toy.env Toy.packed3 = .ok ([1, 2, 3, 4, 5], some 8) :=
  C14_history Toy.env Toy.laws _ _ _ _ _ _ _ Toy.packed_ok _ _ Toy.history

/-! ### C15 -/

/-- C15: over any history the sum of the number of chunks and the number of reserved chunks stays the same, and the
chunks start at the same place: the offsets never grow beyond the space reserved for them. -/
theorem C15_bookkeeping (E : Env μ) (L : E.Laws) (data : Bytes) (cs : ChunkSizeArg) (md : Option μ) (a : BloscArgs)
    (b : BloscpackArgs) (m : MetadataArgs) (out : Bytes) (h : packBytesToBytes E data cs md a b m = .ok out)
    (log : List (Op μ × Bool)) (d : Bytes) (hist : Spec.History E out log d) :
    ∃ h₀ md₀ mh₀ os₀ fp₀ h₁ md₁ mh₁ os₁ fp₁, readBeginning E { data := out } = (.ok (h₀, md₀, mh₀, os₀), fp₀) ∧
      readBeginning E { data := d } = (.ok (h₁, md₁, mh₁, os₁), fp₁) ∧
      h₁.nchunks + h₁.max_app_chunks = h₀.nchunks + h₀.max_app_chunks ∧ 0 ≤ h₁.max_app_chunks ∧
      fp₁.pos = fp₀.pos ∧ (b.offsets = true → (os₁.length : Int) = h₁.nchunks) := by
  obtain ⟨F, rfl, hc, hnn, hd, hm, ho, -⟩ := packed_appendable E L _ _ _ _ _ _ _ h
  obtain ⟨F', rfl, h2, h3⟩ := history_kept L hist F rfl hc hnn
  obtain ⟨os0, r1, -, -⟩ := readBeginning_file L hc.toPre (F.body E ++ F.junk) []
  obtain ⟨os1, r2, r3, -⟩ := readBeginning_file L h2.conf.toPre (F'.body E ++ F'.junk) []
  refine ⟨_, _, _, _, _, _, _, _, _, _, r1, r2, h2.total, h2.conf.ok.2.2.2.2.2.2.1.1, ?_, ?_⟩
  · simp [h2.front]
  · intro hb
    have h4 := r3 (by rw [h2.offsets, ho, hb])
    rw [h2.conf.decode_table (by rw [h2.offsets, ho, hb])] at h4
    cases h4
    rw [positions_length, List.length_map, h2.conf.nchunks]

example : ∃ h₁ md₁ mh₁ os₁ fp₁, readBeginning Toy.env { data := Toy.packed3 } = (.ok (h₁, md₁, mh₁, os₁), fp₁) ∧
    (os₁.length : Int) = h₁.nchunks := by
  obtain ⟨_, _, _, _, _, h1, m1, mh1, o1, f1, -, h, -, -, -, h'⟩ :=
    C15_bookkeeping Toy.env Toy.laws _ _ _ _ _ _ _ Toy.packed_ok _ _ Toy.history
  exact ⟨h1, m1, mh1, o1, f1, h, h' rfl⟩

/-! ### C17 -/

/-- C17: after any history the header describes the chunking that packing all the data at once with the file's chunk
size gives; the chunk size never changes. -/
theorem C17_same_chunking (E : Env μ) (L : E.Laws) (data : Bytes) (cs : ChunkSizeArg) (md : Option μ) (a : BloscArgs)
    (b : BloscpackArgs) (m : MetadataArgs) (out : Bytes) (h : packBytesToBytes E data cs md a b m = .ok out)
    (log : List (Op μ × Bool)) (d : Bytes) (hist : Spec.History E out log d) (all : Bytes)
    (hall : all = (Spec.effect (data, md) log).1) :
    ∃ h₀ md₀ mh₀ os₀ fp₀ h₁ md₁ mh₁ os₁ fp₁, readBeginning E { data := out } = (.ok (h₀, md₀, mh₀, os₀), fp₀) ∧
      readBeginning E { data := d } = (.ok (h₁, md₁, mh₁, os₁), fp₁) ∧ h₁.chunk_size = h₀.chunk_size ∧
      calculateNchunks all.length (.int h₀.chunk_size) = .ok (h₁.nchunks, h₁.chunk_size, h₁.last_chunk) ∧
      h₁.chunk_size * (h₁.nchunks - 1) + h₁.last_chunk = all.length := by
  obtain ⟨F, rfl, hc, hnn, hd, hm, -, -, hle⟩ := packed_appendable E L _ _ _ _ _ _ _ h
  obtain ⟨F', rfl, h2, h3⟩ := history_kept L hist F rfl hc hnn
  obtain ⟨os0, r1, -, -⟩ := readBeginning_file L hc.toPre (F.body E ++ F.junk) []
  obtain ⟨os1, r2, -, -⟩ := readBeginning_file L h2.conf.toPre (F'.body E ++ F'.junk) []
  have h4 : all = F'.data := by rw [hall, ← hd, ← hm, ← h3]
  obtain ⟨c, h5, h6, -⟩ := h2.conf.chunking
  have h7 := h6 (by rw [h2.chunk_size]; have := h2.grows; rw [hd] at this; omega)
  refine ⟨_, _, _, _, _, _, _, _, _, _, r1, r2, h2.chunk_size, ?_, ?_⟩
  · rw [h4, ← h2.chunk_size, h5, h7]
  · rw [h4, h2.conf.data_length]

/-- in the example, five bytes in chunks of two -/
example : ((readBeginning Toy.env { data := Toy.packed3 }).1.toOption.map fun r =>
    (r.1.nchunks, r.1.chunk_size, r.1.last_chunk)) = some (3, 2, 1) := by decide +kernel

/-! ### C18 -/

/-- C18: after any history the offsets table of a file packed with offsets is exact. -/
theorem C18_offsets_exact (E : Env μ) (L : E.Laws) (data : Bytes) (cs : ChunkSizeArg) (md : Option μ) (a : BloscArgs)
    (b : BloscpackArgs) (m : MetadataArgs) (hb : b.offsets = true) (out : Bytes)
    (h : packBytesToBytes E data cs md a b m = .ok out)
    (log : List (Op μ × Bool)) (d : Bytes) (hist : Spec.History E out log d) :
    Spec.OffsetsExact E d (Spec.effect (data, md) log).1 := by
  obtain ⟨F, rfl, hc, hnn, hd, hm, ho, -⟩ := packed_appendable E L _ _ _ _ _ _ _ h
  obtain ⟨F', rfl, h2, h3⟩ := history_kept L hist F rfl hc hnn
  rw [hd, hm] at h3
  have := h2.conf.offsets_exact L (by rw [h2.offsets, ho, hb])
  rw [← h3]; exact this

example : Spec.OffsetsExact Toy.env Toy.packed3 [1, 2, 3, 4, 5] :=
  C18_offsets_exact Toy.env Toy.laws _ _ _ _ _ _ rfl _ Toy.packed_ok _ _ Toy.history

end Bloscpack
