import Verif.Lemmas.AppendFacts
import Verif.Lemmas.Damage
import Verif.Props.RoundTrip
/-
C13, C15–C20, C43, C44: one append.
-/
namespace Bloscpack
variable {μ : Type}

theorem unpack_conforming {E : Env μ} (L : E.Laws) {F : File μ} (hv : F.Valid E) :
    unpackBytesFromBytes E (F.bytes E) = .ok (F.data, F.metadata) := by
  exact unpackBytes_ok (unpackFrom_file L hv)

/-- a file without offsets is refused, without reading further -/
theorem append_no_offsets {E : Env μ} (L : E.Laws) {F : File μ} (hv : F.Pre E) (ho : F.header.offsets = false) (new : FP)
    (n : Int) (args : AppendArgs) (l : List (Nat × Bytes)) :
    appendFp E new n args { data := F.bytes E, log := l } = (.error .runtimeError, Z (F.front E) (F.body E ++ F.junk) l) := by
  obtain ⟨os, h1, -, h2⟩ := readBeginning_file L hv (F.body E ++ F.junk) l
  have h3 := (File.lookup hv).1
  have hz : ({ data := F.bytes E, log := l } : FP) = Z [] (F.front E ++ (F.body E ++ F.junk)) l := rfl
  unfold appendFp appendFrom
  rw [hz, Proc.bind_of_ok h1, Proc.bind_of_ok (Proc.ofExcept_apply _ _ |>.trans (by rw [h3])),
    Proc.bind_of_error (Proc.raiseIf_pos (h2 ho) _ _)]

/-! ### C13 -/

/-- C13: after `append_fp` succeeded the file unpacks to the previous data followed by the new content and to the same
metadata; it is a conforming file again, with the returned number of chunks more than before. -/
theorem C13_append (E : Env μ) (L : E.Laws) (F : File μ) (hc : F.Conforming E) (hnn : F.NoNull) (new : Bytes)
    (args : AppendArgs) (k : Int) (fp : FP)
    (h : appendFp E { data := new } new.length args { data := F.bytes E } = (.ok k, fp)) :
    unpackBytesFromBytes E fp.data = .ok (F.data ++ new, F.metadata) ∧
    ∃ F' : File μ, fp.data = F'.bytes E ∧ F'.Conforming E ∧ F'.NoNull ∧ F'.data = F.data ++ new ∧ F'.metadata = F.metadata ∧
      (F'.chunks.length : Int) = F.chunks.length + k ∧
      F'.header.nchunks = F.header.nchunks + k ∧ F'.header.max_app_chunks = F.header.max_app_chunks - k ∧
      F'.header.chunk_size = F.header.chunk_size ∧ F'.header.offsets = true ∧ F'.sec = F.sec ∧
      (F'.front E).length = (F.front E).length ∧ 0 ≤ k ∧
      F'.header = { F.header with
        last_chunk := F'.header.last_chunk, nchunks := F.header.nchunks + k, max_app_chunks := F.header.max_app_chunks - k } := by
  cases ho : F.header.offsets with
  | false =>
    have := append_no_offsets L hc.toPre ho { data := new } new.length args []
    rw [h] at this; cases this
  | true =>
    obtain ⟨init, p, hch, -, ⟨e, h1, -⟩ | ⟨chs, q, k', hg, ⟨h1, h2, h3, -⟩ | ⟨-, ⟨e, h1⟩, -⟩⟩⟩ := append_cases L hc ho hnn h
    · cases h1
    · cases h2
      have hcf := hg.conforming L hc ho hch h1 (p.1 ++ ((F.impl E).function p.1 ++ F.junk))
      have hd := hg.data hch (p.1 ++ ((F.impl E).function p.1 ++ F.junk))
      have hk := hg.number
      generalize hF' : grownFile E F init (chs ++ [q]) q.2.length (p.1 ++ ((F.impl E).function p.1 ++ F.junk)) = F' at *
      have hmd : F'.metadata = F.metadata := by rw [← hF']; rfl
      have hsec : F'.sec = F.sec := by rw [← hF']; rfl
      refine ⟨?_, F', h3, hcf, ?_, hd, hmd, ?_, ?_, ?_, ?_, ?_, hsec, ?_, ?_, ?_⟩
      · rw [h3, unpack_conforming L hcf.toValid, hd, hmd]
      · intro hn; rw [hsec]; rw [hmd] at hn; exact hnn hn
      · rw [← hF', hch]; simp [grownFile]; omega
      · rw [← hF']; simp [grownFile]; omega
      · rw [← hF']; simp [grownFile]; omega
      · rw [← hF']; rfl
      · rw [← hF']; exact ho
      · rw [← hF']
        refine grownFile_front_length hc.toPre (by rw [hc.nchunks, hch]; simp) ho (by simp) ?_
        have := hg.space; simp; omega
      · omega
      · rw [← hF']
        have e1 : ((chs ++ [q]).length : Int) - 1 = k := by rw [List.length_append]; simp; omega
        simp only [grownFile, e1]
    · cases h1

/-- C13: with valid compression settings and enough reserved offsets, appending to a file with offsets succeeds. (The
bound keeps the offsets below 2⁶³.) -/
theorem C13_total (E : Env μ) (L : E.Laws) (F : File μ) (hc : F.Conforming E) (hnn : F.NoNull) (ho : F.header.offsets = true)
    (new : Bytes) (args : AppendArgs) (ha : (args.filled F.header).Valid E) (hcs : 1 ≤ F.header.chunk_size)
    (hsize : (F.bytes E).length + 100 * new.length < 2 ^ 62) (N : Int)
    (hN : Spec.ChunkCount F.header.chunk_size (F.data ++ new).length N) (hspace : N ≤ F.header.nchunks + F.header.max_app_chunks) :
    (appendFp E { data := new } new.length args { data := F.bytes E }).1 = .ok (N - F.header.nchunks) := by
  generalize hrun : appendFp E { data := new } new.length args { data := F.bytes E } = res
  obtain ⟨r, fp⟩ := res
  have hB : BLOSC_MAX_BUFFERSIZE = 2 ^ 31 - 17 := by decide
  obtain ⟨init, p, hch, hl, ⟨e, h1, -, -, h2⟩ | ⟨chs, q, k', hg, ⟨h1, h2, h3, -⟩ | ⟨h0, -⟩⟩⟩ := append_cases L hc ho hnn hrun
  · exfalso
    rcases h2.reason hc hch hl hcs (by omega) hN with ⟨h3, -⟩ | ⟨-, d, h3, h4, -⟩
    · omega
    · obtain ⟨c, h5⟩ := L.compress_total d _ ha (by have := hc.ok.2.2.2.1.2; omega)
      rw [h4] at h5; cases h5
  · rw [h2, hg.count_eq hc hl hcs hN]
  · exact absurd (hg.reach L hc hch hsize) h0

/-- the hypotheses of C13 are met by every file packed with offsets -/
theorem packed_appendable (E : Env μ) (L : E.Laws) (data : Bytes) (cs : ChunkSizeArg) (md : Option μ) (a : BloscArgs)
    (b : BloscpackArgs) (m : MetadataArgs) (out : Bytes) (h : packBytesToBytes E data cs md a b m = .ok out) :
    ∃ F : File μ, out = F.bytes E ∧ F.Conforming E ∧ F.NoNull ∧ F.data = data ∧ F.metadata = md ∧
      F.header.offsets = b.offsets ∧ (data = [] → F.header.chunk_size = 0) ∧ F.header.chunk_size ≤ data.length := by
  obtain ⟨F, n, c, l, m', h1, h2, -, h3, h4, h5, h6, h7, -⟩ := packBytesToBytes_ok L h
  refine ⟨F, h1, h2, ?_, h3, h4, (packHeader_ok h7).2.2.1, ?_,
    by rw [(packHeader_ok h7).2.2.2.2.2.2.1]; exact calculateNchunks_le h6⟩
  · intro hn
    have := h5.isSome
    rw [← h4, hn] at this
    cases hs : F.sec with
    | none => rfl
    | some s => rw [hs] at this; cases this
  · rintro rfl
    rcases h2.sizes with h | h
    · exfalso
      have hl := h2.data_length
      have hn := h2.n_pos
      have := Int.mul_nonneg (show 0 ≤ F.header.chunk_size by omega) (show 0 ≤ F.header.nchunks - 1 by omega)
      rw [h3] at hl
      simp at hl
      omega
    · exact h.2.1

/-- packing three bytes in chunks of two and appending three more adds one chunk; the rest fills up the last one -/
example : (packBytesToBytes Toy.env [1, 2, 3] (.int 2) (some 5) {} { max_app_chunks := .int 2 }
      { max_meta_size := .int 12 }).toOption.map (fun out =>
    let r := appendFp Toy.env { data := [4, 5, 6] } 3 {} { data := out }
    (r.1.toOption, (unpackBytesFromBytes Toy.env r.2.data).toOption)) = some (some 1, some ([1, 2, 3, 4, 5, 6], some 5)) := by
  decide +kernel

/-- and the file conforms -/
example (out : Bytes) (h : packBytesToBytes Toy.env [1, 2, 3] (.int 2) (some 5) {} { max_app_chunks := .int 2 }
    { max_meta_size := .int 12 } = .ok out) : ∃ F : File Nat, out = F.bytes Toy.env ∧ F.Conforming Toy.env ∧ F.NoNull ∧
    F.header.offsets = true := by
  obtain ⟨F, h1, h2, h3, -, -, h4, -⟩ := packed_appendable Toy.env Toy.laws _ _ _ _ _ _ _ h
  exact ⟨F, h1, h2, h3, h4⟩

/-! ### C15 -/

/-- C15: `append_fp` raises NotEnoughSpace exactly when the data would need more chunks than there are, including the
reserved ones. (Without valid compression settings another exception may be raised when there is enough space. A new
file of 2⁶³ bytes is not possible.) -/
theorem C15_not_enough_space (E : Env μ) (L : E.Laws) (F : File μ) (hc : F.Conforming E) (hnn : F.NoNull)
    (ho : F.header.offsets = true) (hcs : 1 ≤ F.header.chunk_size) (new : Bytes) (hnew : new.length < 2 ^ 63)
    (args : AppendArgs) (N : Int) (hN : Spec.ChunkCount F.header.chunk_size (F.data ++ new).length N) :
    (F.header.nchunks + F.header.max_app_chunks < N →
      (appendFp E { data := new } new.length args { data := F.bytes E }).1 = .error .notEnoughSpace) ∧
    (N ≤ F.header.nchunks + F.header.max_app_chunks → (args.filled F.header).Valid E →
      ∀ fp, appendFp E { data := new } new.length args { data := F.bytes E } = (.error .notEnoughSpace, fp) →
        2 ^ 63 ≤ fp.data.length) := by
  generalize hrun : appendFp E { data := new } new.length args { data := F.bytes E } = res
  obtain ⟨r, fp⟩ := res
  have hB : BLOSC_MAX_BUFFERSIZE = 2 ^ 31 - 17 := by decide
  obtain ⟨init, p, hch, hl, ⟨e, h1, -, -, h2⟩ | ⟨chs, q, k', hg, h0⟩⟩ := append_cases L hc ho hnn hrun
  · rcases h2.reason hc hch hl hcs (by omega) hN with ⟨h3, rfl⟩ | ⟨h3, d, h4, h5, -⟩
    · exact ⟨fun _ => h1, fun h => by omega⟩
    · refine ⟨fun h => by omega, fun _ ha => ?_⟩
      obtain ⟨c, h6⟩ := L.compress_total d _ ha (by have := hc.ok.2.2.2.1.2; omega)
      rw [h5] at h6; cases h6
  · have hk := hg.count_eq hc hl hcs hN
    have hs := hg.space
    refine ⟨fun h => by omega, fun _ _ fp' h => ?_⟩
    rcases h0 with ⟨-, h1, -⟩ | ⟨-, -, h1, -⟩
    · rw [h1] at h; cases h
    · cases h; exact h1

/-! ### C16 -/

/-- C16: if `append_fp` raises, the file is byte for byte what it was. The only exception: an append that made the file
grow to 2⁶³ bytes or more, whose offsets do not fit their fields. -/
theorem C16_failed_append_untouched (E : Env μ) (L : E.Laws) (F : File μ) (hc : F.Conforming E) (hnn : F.NoNull)
    (new : Bytes) (args : AppendArgs) (e : Err) (fp : FP)
    (h : appendFp E { data := new } new.length args { data := F.bytes E } = (.error e, fp)) (hsize : fp.data.length < 2 ^ 63) :
    fp.data = F.bytes E ∧ fp.log = [] := by
  cases ho : F.header.offsets with
  | false =>
    have := append_no_offsets L hc.toPre ho { data := new } new.length args []
    rw [h] at this
    cases this
    exact ⟨rfl, rfl⟩
  | true =>
    obtain ⟨init, p, hch, -, ⟨e, h1, h2, h3, -⟩ | ⟨chs, q, k', hg, ⟨h1, h2, h3, -⟩ | ⟨-, -, h1, -⟩⟩⟩ := append_cases L hc ho hnn h
    · exact ⟨h2, h3⟩
    · cases h2
    · omega

/-- C16: the exception cannot occur below 2⁶² bytes -/
theorem C16_small (E : Env μ) (L : E.Laws) (F : File μ) (hc : F.Conforming E) (hnn : F.NoNull)
    (new : Bytes) (args : AppendArgs) (e : Err) (fp : FP) (hsize : (F.bytes E).length + 100 * new.length < 2 ^ 62)
    (h : appendFp E { data := new } new.length args { data := F.bytes E } = (.error e, fp)) :
    fp.data = F.bytes E ∧ fp.log = [] := by
  cases ho : F.header.offsets with
  | false =>
    have := append_no_offsets L hc.toPre ho { data := new } new.length args []
    rw [h] at this
    cases this
    exact ⟨rfl, rfl⟩
  | true =>
    obtain ⟨init, p, hch, -, ⟨e, h1, h2, h3, -⟩ | ⟨chs, q, k', hg, ⟨h1, h2, h3, -⟩ | ⟨h0, -⟩⟩⟩ := append_cases L hc ho hnn h
    · exact ⟨h2, h3⟩
    · cases h2
    · exact absurd (hg.reach L hc hch hsize) h0

/-- no space left, and invalid settings: the file stays -/
example : (packBytesToBytes Toy.env [1, 2, 3] (.int 2) (some 5) {} { max_app_chunks := .int 2 }
      { max_meta_size := .int 12 }).toOption.map (fun out =>
    let r := appendFp Toy.env { data := List.replicate 6 7 } 6 {} { data := out }
    let r' := appendFp Toy.env { data := [1] } 1 { clevel := some 10 } { data := out }
    (r.1, decide (r.2.data = out), r'.1, decide (r'.2.data = out))) =
      some (.error .notEnoughSpace, true, .error .valueError, true) := by
  decide +kernel

/-! ### C19 -/

/-- C19: without offsets, appending raises RuntimeError and leaves the file alone; with offsets, it does not raise
RuntimeError (when the settings are valid, so that blosc does not raise). -/
theorem C19_append_needs_offsets (E : Env μ) (L : E.Laws) (F : File μ) (hc : F.Conforming E) (hnn : F.NoNull)
    (new : Bytes) (args : AppendArgs) (hnew : new.length < 2 ^ 63) (r : Except Err Int) (fp : FP)
    (h : appendFp E { data := new } new.length args { data := F.bytes E } = (r, fp)) :
    (F.header.offsets = false → r = .error .runtimeError ∧ fp.data = F.bytes E ∧ fp.log = []) ∧
    (F.header.offsets = true → (args.filled F.header).Valid E → fp.data.length < 2 ^ 63 → r ≠ .error .runtimeError) := by
  refine ⟨fun ho => ?_, fun ho ha hsz hr => ?_⟩
  · have := append_no_offsets L hc.toPre ho { data := new } new.length args []
    rw [h] at this
    cases this
    exact ⟨rfl, rfl, rfl⟩
  · obtain ⟨init, p, hch, hl, ⟨e, h1, -, -, h2⟩ | ⟨chs, q, k', hg, ⟨-, h2, -⟩ | ⟨-, -, h1, -⟩⟩⟩ := append_cases L hc ho hnn h
    · rw [hr] at h1
      cases h1
      have hB : BLOSC_MAX_BUFFERSIZE = 2 ^ 31 - 17 := by decide
      rcases h2 with ⟨h3, h4⟩ | ⟨k, -, ⟨-, h3⟩ | ⟨-, t, h3, h4⟩⟩
      · obtain ⟨-, -, -, -, h5⟩ := C03_chunking_rejected (new.length - (F.header.chunk_size - p.2.length)) (.int F.header.chunk_size)
        have h6 := h5 (by omega) _ (.inl rfl)
        by_cases hr : 1 ≤ F.header.chunk_size ∧ F.header.chunk_size ≤ BLOSC_MAX_BUFFERSIZE
        · by_cases hs : F.header.chunk_size * (2 ^ 63 - 1) < new.length - (F.header.chunk_size - p.2.length)
          · rw [(h6.2 hr).1 hs] at h4; cases h4
          · obtain ⟨r, h7⟩ := (h6.2 hr).2 (by omega)
            rw [h7] at h4; cases h4
        · rw [h6.1 hr] at h4; cases h4
      · cases h3
      · obtain ⟨c, h6⟩ := L.compress_total _ _ ha (show ((p.2 ++ new.take t).length : Int) ≤ _ by have := hc.ok.2.2.2.1.2; omega)
        rw [h4.1] at h6; cases h6
    · rw [hr] at h2; cases h2
    · omega

example : (packBytesToBytes Toy.env [1, 2, 3] (.int 2) (none : Option Nat) {} { offsets := false }).toOption.map (fun out =>
    (appendFp Toy.env { data := [4] } 1 {} { data := out }).1) = some (.error .runtimeError) := by
  decide +kernel

/-! ### C20 -/

/-- C20 is violated: a file packed from empty input refuses every append of something. -/
theorem C20_violated (E : Env μ) (L : E.Laws) (cs : ChunkSizeArg) (md : Option μ) (a : BloscArgs)
    (b : BloscpackArgs) (m : MetadataArgs) (hb : b.offsets = true) (out : Bytes)
    (h : packBytesToBytes E [] cs md a b m = .ok out) (new : Bytes) (hnew : new ≠ []) (args : AppendArgs) :
    ∃ fp, appendFp E { data := new } new.length args { data := out } = (.error .valueError, fp) ∧ fp.data = out := by
  obtain ⟨F, rfl, hc, hnn, hd, -, ho, hz, -⟩ := packed_appendable E L _ _ _ _ _ _ _ h
  have hz := hz rfl
  have hl0 : 0 < (new.length : Int) := by
    have : new.length ≠ 0 := fun h0 => hnew (List.eq_nil_of_length_eq_zero h0)
    omega
  generalize hrun : appendFp E { data := new } new.length args { data := F.bytes E } = res
  obtain ⟨r, fp⟩ := res
  obtain ⟨init, p, hch, hl, ⟨e, h1, h2, -, h3⟩ | ⟨chs, q, k', hg, -⟩⟩ := append_cases L hc (by rw [ho, hb]) hnn hrun
  · refine ⟨fp, ?_, h2⟩
    have hlast : F.header.last_chunk = 0 := by rcases hc.sizes with h | h <;> omega
    have hcalc : calculateNchunks (new.length - (F.header.chunk_size - p.2.length)) (.int F.header.chunk_size) = .error .valueError := by
      obtain ⟨-, -, -, -, h5⟩ := C03_chunking_rejected (new.length - (F.header.chunk_size - p.2.length)) (.int F.header.chunk_size)
      exact (h5 (by omega) _ (.inl rfl)).1 (by omega)
    rcases h3 with ⟨h3, h4⟩ | ⟨k, ⟨h3, -⟩ | ⟨-, cs, lc, h3⟩, -⟩
    · rw [hcalc] at h4; cases h4; rw [h1]
    · omega
    · rw [hcalc] at h3; cases h3
  · exfalso
    have := hg.last_le
    rcases hg.nonempty with h | ⟨-, -, -, h⟩
    · omega
    · exact hnew h

/-- C20, what does hold: appending nothing to such a file works and it still unpacks to nothing. -/
theorem C20_append_nothing_partial (E : Env μ) (L : E.Laws) (cs : ChunkSizeArg) (md : Option μ) (a : BloscArgs)
    (b : BloscpackArgs) (m : MetadataArgs) (out : Bytes)
    (h : packBytesToBytes E [] cs md a b m = .ok out) (args : AppendArgs) (k : Int) (fp : FP)
    (hrun : appendFp E { data := [] } 0 args { data := out } = (.ok k, fp)) :
    unpackBytesFromBytes E fp.data = .ok ([], md) := by
  obtain ⟨F, rfl, hc, hnn, hd, hm, -, -⟩ := packed_appendable E L _ _ _ _ _ _ _ h
  have := (C13_append E L F hc hnn [] args k fp hrun).1
  rw [this, hd, hm]; rfl

example : (packBytesToBytes Toy.env [] (.int 2) (none : Option Nat) {} { max_app_chunks := .int 1 }).toOption.map (fun out =>
    ((appendFp Toy.env { data := [4] } 1 {} { data := out }).1, (appendFp Toy.env { data := [] } 0 {} { data := out }).1)) =
      some (.error .valueError, .ok 0) := by
  decide +kernel

/-! ### C43 -/

/-- A file whose last chunk is `p` and is followed by the digest `D` instead of the right one. -/
def Spec.withLastDigest (E : Env μ) (F : File μ) (init : List (Bytes × Bytes)) (p : Bytes × Bytes) (D : Bytes) : Bytes :=
  F.front E ++ Spec.records (F.impl E).function (init.map (·.1)) ++ (p.1 ++ (D ++ F.junk))

/-- C43 is violated: however wrong the digest of the last chunk is (so that unpacking raises ChecksumMismatch), a valid
append for which there is space succeeds, and what it leaves is a file that unpacks without complaint. Since `F`
and `D` are arbitrary, this includes the case that the chunk was damaged and `D` is the digest of the original chunk. -/
theorem C43_violated (E : Env μ) (L : E.Laws) (F : File μ) (hc : F.Conforming E) (hnn : F.NoNull) (ho : F.header.offsets = true)
    (init : List (Bytes × Bytes)) (p : Bytes × Bytes) (hch : F.chunks = init ++ [p]) (D : Bytes)
    (hD : D.length = (F.impl E).size) (hbad : D ≠ (F.impl E).function p.1)
    (new : Bytes) (args : AppendArgs) (ha : (args.filled F.header).Valid E) (hcs : 1 ≤ F.header.chunk_size)
    (hsize : (F.bytes E).length + 100 * new.length < 2 ^ 62) (N : Int)
    (hN : Spec.ChunkCount F.header.chunk_size (F.data ++ new).length N) (hspace : N ≤ F.header.nchunks + F.header.max_app_chunks) :
    unpackBytesFromBytes E (Spec.withLastDigest E F init p D) = .error .checksumMismatch ∧
    ∃ fp, appendFp E { data := new } new.length args { data := Spec.withLastDigest E F init p D } =
        (.ok (N - F.header.nchunks), fp) ∧
      unpackBytesFromBytes E fp.data = .ok (F.data ++ new, F.metadata) := by
  have hB : BLOSC_MAX_BUFFERSIZE = 2 ^ 31 - 17 := by decide
  have hl : (p.2.length : Int) = F.header.last_chunk := by
    obtain ⟨init0, p0, e1, -, e3⟩ := hc.lengths
    rw [hch] at e1
    have : p = p0 := by simpa using (List.append_inj' e1 rfl).2
    rw [this]; exact e3
  constructor
  · -- the file without its last chunk, which is in the junk
    have hfr := framed_of_decompress L (hc.chunks_ok p (by rw [hch]; simp))
    let G : File μ := { F with chunks := init, junk := p.1 ++ (D ++ F.junk) }
    have hG : G.Pre E := {
      ok := hc.ok, version := hc.version, meta_flag := hc.meta_flag, sec_ok := hc.sec_ok, offsets_len := hc.offsets_len, offsets_small := hc.offsets_small
      nchunks_le := by show (init.length : Int) ≤ F.header.nchunks; rw [hc.nchunks, hch]; simp; omega
      chunks_ok := fun q hq => hc.chunks_ok q (by rw [hch]; exact List.mem_append_left _ hq) }
    have hb : Spec.withLastDigest E F init p D = G.bytes E := by
      show _ = G.front E ++ (G.body E ++ G.junk)
      rw [← List.append_assoc]; rfl
    rw [hb]
    refine unpackBytes_error (unpackFrom_mismatch L hG (by show (init.length : Int) < F.header.nchunks; rw [hc.nchunks, hch]; simp; omega)
      p.1 D F.junk (by show p.1 ++ (D ++ F.junk) = _; simp) hfr.1 hfr.2 (by rw [hD]; exact Nat.le_refl _)
      (by intro h; rw [hD] at h; exact absurd h (Nat.lt_irrefl _)) ?_ hbad) (by decide)
    rintro rfl
    have hs := Hash.size_eq L (File.lookup hc.toPre).2.1 p.1
    exact hbad (List.eq_nil_of_length_eq_zero (by rw [hs, ← hD]; rfl)).symm
  · generalize hrun : appendFp E { data := new } new.length args { data := Spec.withLastDigest E F init p D } = res
    obtain ⟨r, fp⟩ := res
    rcases append_run L hc ho hnn hch D hD new args [] r fp hrun with ⟨e, -, -, -, h2⟩ | ⟨chs, q, k, hg, ⟨h1, h2, h3, -⟩ | ⟨h0, -⟩⟩
    · exfalso
      rcases h2.reason hc hch hl hcs (by omega) hN with ⟨h3, -⟩ | ⟨-, d, h3, h4, -⟩
      · omega
      · obtain ⟨c, h5⟩ := L.compress_total d _ ha (by have := hc.ok.2.2.2.1.2; omega)
        rw [h4] at h5; cases h5
    · refine ⟨fp, by rw [h2, hg.count_eq hc hl hcs hN], ?_⟩
      have hcf := hg.conforming L hc ho hch h1 (p.1 ++ (D ++ F.junk))
      rw [h3, unpack_conforming L hcf.toValid, hg.data hch]
      rfl
    · exact absurd (hg.reach L hc hch hsize) h0

/-- C43, what does hold, for any file: a last chunk that does not decompress makes the append raise, and nothing is
written. -/
theorem C43_undecodable_partial (E : Env μ) (new : FP) (n : Int) (args : AppendArgs) (d : Bytes) (h : BloscpackHeader)
    (md : Option μ) (mh : Option MetadataHeader) (os : List Int) (s : FP)
    (hb : readBeginning E { data := d } = (.ok (h, md, mh, os), s)) (impl : Hash) (hi : h.checksumImpl E = .ok impl)
    (last : Int) (hl : os.getLast? = some last) (hl0 : 0 ≤ last) (c : Bytes) (bh : BloscHeader) (dg : Option Bytes) (s' : FP)
    (hr : readCompressedChunk impl { data := d, pos := last.toNat } = (.ok (c, bh, dg), s')) (e : Err)
    (he : E.decompress c = .error e) :
    ∃ e' fp, appendFp E new n args { data := d } = (.error e', fp) ∧ fp.data = d ∧ fp.log = [] := by
  have hs : s.data = d ∧ s.log = [] := by
    have := ReadOnly.readBeginning E { data := d }
    rw [hb] at this; exact this
  have hs' : s'.data = d ∧ s'.log = [] := by
    have := ReadOnly.readCompressedChunk impl { data := d, pos := last.toNat }
    rw [hr] at this; exact this
  have hne : os ≠ [] := by rintro rfl; cases hl
  unfold appendFp appendFrom
  rw [Proc.bind_of_ok hb, Proc.bind_of_ok (Proc.ofExcept_apply _ _ |>.trans (by rw [hi])),
    Proc.bind_of_ok (Proc.raiseIf_neg hne _ _)]
  cases hf : args.fill h with
  | error e1 => exact ⟨e1, s, by rw [Proc.bind_of_error (Proc.ofExcept_apply _ _)], hs⟩
  | ok a =>
    rw [Proc.bind_of_ok (Proc.ofExcept_apply _ _)]
    simp only
    cases ho : offsetsPos E md mh with
    | error e1 => exact ⟨e1, s, by rw [Proc.bind_of_error (Proc.ofExcept_apply _ _)], hs⟩
    | ok op =>
      rw [Proc.bind_of_ok (Proc.ofExcept_apply _ _),
        Proc.bind_of_ok (Proc.ofExcept_apply _ _ |>.trans (by simp only [lastOffset, hl]; rfl))]
      have hsk : fpSeek last s = (.ok (), { data := d, pos := last.toNat }) := by
        have hm := SameKind.readBeginning E { data := d }
        rw [hb] at hm
        obtain ⟨sd, sp, sl, sm⟩ := s
        obtain ⟨rfl, rfl⟩ := hs
        simp only at hm
        subst hm
        simp [fpSeek_eq, FP.seek, show ¬ last < 0 by omega]
      refine ⟨e, s', ?_, hs'⟩
      rw [Proc.bind_of_ok hsk, Proc.bind_of_ok hr, Proc.bind_of_error (Proc.ofExcept_apply _ _ |>.trans (by rw [he]))]

/-- the last byte of this file is part of the digest of the last chunk; changing it goes unnoticed by an append -/
example : (packBytesToBytes Toy.env [1, 2, 3] (.int 2) (none : Option Nat) {} { max_app_chunks := .int 1 }).toOption.map (fun out =>
    let bad := out.dropLast ++ [out.getLastD 0 + 1]
    let r := appendFp Toy.env { data := [4, 5] } 2 {} { data := bad }
    ((unpackBytesFromBytes Toy.env bad).toOption, r.1.toOption, (unpackBytesFromBytes Toy.env r.2.data).toOption)) =
    some (none, some 1, some ([1, 2, 3, 4, 5], none)) := by
  decide +kernel

/-! ### C44 -/

/-- C44 is violated: `append` with an empty new file raises ZeroDivisionError (after rewriting the last chunk). -/
theorem C44_violated (E : Env μ) (L : E.Laws) (F : File μ) (hc : F.Conforming E) (hnn : F.NoNull) (ho : F.header.offsets = true)
    (args : AppendArgs) (ha : (args.filled F.header).Valid E) :
    (appendFile E (F.bytes E) [] args).1 = .error .zeroDivisionError := by
  generalize hrun : appendFp E { data := [] } ([] : Bytes).length args { data := F.bytes E } = res
  obtain ⟨r, fp⟩ := res
  have hlast : F.header.last_chunk ≤ F.header.chunk_size := by rcases hc.sizes with h | h <;> omega
  have hB : BLOSC_MAX_BUFFERSIZE = 2 ^ 31 - 17 := by decide
  have hm0 : 0 ≤ F.header.max_app_chunks := hc.ok.2.2.2.2.2.2.1.1
  have hok : ∃ k, r = .ok k := by
    obtain ⟨init, p, hch, hl, ⟨e, h1, -, -, h2⟩ | ⟨chs, q, k', hg, ⟨-, h2, -⟩ | ⟨h0, -⟩⟩⟩ := append_cases L hc ho hnn hrun
    · exfalso
      rcases h2 with ⟨h2, -⟩ | ⟨k, ⟨-, rfl⟩ | ⟨h2, -⟩, ⟨h3, -⟩ | ⟨-, t, h3, h4⟩⟩
      · simp at h2; omega
      · omega
      · obtain ⟨c, h5⟩ := L.compress_total _ _ ha (show ((p.2 ++ ([] : Bytes).take t).length : Int) ≤ _ by have := hc.ok.2.2.2.1.2; omega)
        rw [h4.1] at h5; cases h5
      · simp at h2; omega
      · simp at h2; omega
    · exact ⟨k', h2⟩
    · exfalso
      apply h0
      have hk : chs = [] := by
        have := hg.number
        rcases hg.count with ⟨-, rfl⟩ | ⟨h2, -⟩
        · exact List.eq_nil_of_length_eq_zero (by omega)
        · simp at h2; omega
      subst hk
      have := hc.reach ho
      rw [hch, List.map_append, List.map_singleton, positions_snoc_congr _ _ _ p.1 q.1] at this
      simpa using this
  obtain ⟨k, rfl⟩ := hok
  simp [appendFile, show appendFp E { data := [] } 0 args { data := F.bytes E } = (.ok k, fp) from hrun]

/-- C44, what does hold: the data and the metadata are preserved. -/
theorem C44_preserved_partial (E : Env μ) (L : E.Laws) (F : File μ) (hc : F.Conforming E) (hnn : F.NoNull)
    (args : AppendArgs) (hsize : (F.bytes E).length < 2 ^ 62) :
    unpackBytesFromBytes E (appendFile E (F.bytes E) [] args).2.data = .ok (F.data, F.metadata) := by
  generalize hrun : appendFp E { data := [] } ([] : Bytes).length args { data := F.bytes E } = res
  obtain ⟨r, fp⟩ := res
  have hd : (appendFile E (F.bytes E) [] args).2 = fp := by
    unfold appendFile
    rw [hrun]
    cases r <;> rfl
  rw [hd]
  cases r with
  | error e =>
    rw [(C16_small E L F hc hnn [] args e fp (by simpa using hsize) hrun).1, unpack_conforming L hc.toValid]
  | ok k => simpa using (C13_append E L F hc hnn [] args k fp hrun).1

example : (packBytesToBytes Toy.env [1, 2, 3] (.int 2) (none : Option Nat) {} { max_app_chunks := .int 1 }).toOption.map (fun out =>
    (appendFile Toy.env out []).1) = some (.error .zeroDivisionError) := by
  decide +kernel

end Bloscpack
