import Verif.Lemmas.Damage
import Verif.Lemmas.ReadOnly
import Verif.Props.RoundTrip
import Verif.Spec.Accept
/-
C21 (single byte corruption), C22 (only verified chunks are accepted), C23 (truncation), C24 (output on failure),
C45 (format version).
-/
namespace Bloscpack
variable {μ : Type}

/-! ### lemmas -/

theorem slice_set {l : Bytes} {i j q : Nat} {v : UInt8} (h : q < i ∨ j ≤ q) : slice (l.set q v) i j = slice l i j := by
  unfold slice
  rcases h with h | h
  · rw [List.drop_set_of_lt h]
  · by_cases hi : q < i
    · rw [List.drop_set_of_lt hi]
    · rw [List.drop_set, if_neg hi, List.take_set_of_le (by omega)]

/-- unpacking a file with one damaged chunk or digest -/
theorem unpackFrom_corrupt {E : Env μ} (L : E.Laws) {F : File μ} (hv : F.Valid E) {pre post p}
    (hch : F.chunks = pre ++ p :: post) (c' dg' : Bytes) (hc : c'.length = p.1.length)
    (hs : slice c' 12 16 = slice p.1 12 16) (hd : dg'.length = (F.impl E).size) (hpos : (F.impl E).size ≠ 0)
    (hbad : dg' ≠ (F.impl E).function c') :
    unpackFrom E (F.front E ++ (Spec.records (F.impl E).function (pre.map (·.1)) ++
      (c' ++ dg' ++ (Spec.records (F.impl E).function (post.map (·.1)) ++ F.junk)))) =
      (.error .checksumMismatch, (pre.map (·.2)).flatten) := by
  generalize hrest : Spec.records (F.impl E).function (post.map (·.1)) ++ F.junk = rest
  let G : File μ := { F with chunks := pre, junk := c' ++ dg' ++ rest }
  have hp := framed_of_decompress L (hv.chunks_ok p (by rw [hch]; simp))
  have hn : (pre.length : Int) < F.header.nchunks := by rw [hv.nchunks, hch]; simp; omega
  have hG : G.Pre E := { hv.toPre with
    nchunks_le := by show (pre.length : Int) ≤ F.header.nchunks; omega
    chunks_ok := fun q hq => hv.chunks_ok q (by rw [hch]; exact List.mem_append_left _ hq) }
  have h1 : leDecode (slice c' 12 16) = c'.length := by rw [hs, hc]; exact hp.2
  have h2 : G.bytes E = F.front E ++ (Spec.records (F.impl E).function (pre.map (·.1)) ++ (c' ++ dg' ++ rest)) := rfl
  rw [← h2]
  have hI : G.impl E = F.impl E := rfl
  exact unpackFrom_mismatch L hG hn c' dg' rest rfl (by rw [hc]; exact hp.1) h1 (by rw [hI, hd]; exact Nat.le_refl _)
    (fun h => by rw [hI, hd] at h; exact absurd h (Nat.lt_irrefl _))
    (by rintro rfl; exact hpos hd.symm) hbad

/-- leading chunks are leading bytes -/
theorem File.Conforming.take_data {E : Env μ} {F : File μ} (hc : F.Conforming E) (i : Nat) :
    ((F.chunks.take i).map (·.2)).flatten = F.data.take (i * F.header.chunk_size.toNat) := by
  obtain ⟨init, p, h1, h2, h3⟩ := hc.lengths
  have hs := hc.sizes
  have hp : p.2.length ≤ F.header.chunk_size.toNat := by omega
  have hin : ∀ b ∈ init.map (·.2), b.length = F.header.chunk_size.toNat := by
    intro b hb
    obtain ⟨q, hq, rfl⟩ := List.mem_map.1 hb
    have := h2 q hq; omega
  unfold File.data
  rw [h1]
  generalize F.header.chunk_size.toNat = c at hp hin
  clear h1 h2 h3 hs
  induction init generalizing i with
  | nil =>
    cases i with
    | zero => simp
    | succ i =>
      have : p.2.length ≤ (i + 1) * c := by rw [Nat.succ_mul]; omega
      simp [List.take_of_length_le this]
  | cons q qs ih =>
    cases i with
    | zero => simp
    | succ i =>
      have hq := hin q.2 (by simp)
      simp only [List.cons_append, List.take_succ_cons, List.map_cons, List.flatten_cons]
      have h1 : q.2.take ((i + 1) * c) = q.2 := List.take_of_length_le (by rw [hq, Nat.succ_mul]; omega)
      have h2 : (i + 1) * c - c = i * c := by rw [Nat.succ_mul]; omega
      rw [ih i (fun b hb => hin b (by simp at hb ⊢; exact .inr hb)), List.take_append, h1, hq, h2]

/-- the layout of a packed file -/
theorem Layout_of {E : Env μ} {F : File μ} (hc : F.Conforming E) (hj : F.junk = []) {a : BloscArgs}
    (ha : ∀ p ∈ F.chunks, E.compress p.2 a = .ok p.1) :
    Spec.Layout E (F.bytes E) F.data F.header.chunk_size.toNat a (F.impl E).function (F.front E) (F.chunks.map (·.1)) where
  bytes := by simp [File.bytes, hj, File.body, Spec.records]
  chunk := by
    intro i hi
    have hi' : i < F.chunks.length := by simpa using hi
    rw [List.getElem_map, ← hc.chunk_slice i hi']
    exact ha _ (List.getElem_mem hi')

/-! ### C21 -/

/-- what happens when one byte of a packed file with an adler32 or crc32 checksum is changed, in terms of the common
part of the unpacking functions -/
theorem corrupt_byte (E : Env μ) (L : E.Laws) (data : Bytes) (cs : ChunkSizeArg) (md : Option μ) (a : BloscArgs)
    (b : BloscpackArgs) (m : MetadataArgs) (out : Bytes) (h : packBytesToBytes E data cs md a b m = .ok out)
    (hb : b.checksum = "adler32" ∨ b.checksum = "crc32") :
    ∃ n c l digest front chunks, calculateNchunks data.length cs = .ok (n, c, l) ∧
      (checksumLookup E.hashlib b.checksum).map Hash.function = .ok digest ∧
      Spec.Layout E out data c.toNat a digest front chunks ∧ (chunks.length : Int) = n ∧
      ∀ i (hi : i < chunks.length) (r : Nat) (v : UInt8), r < chunks[i].length + 4 → ¬ (12 ≤ r ∧ r < 16) →
        out[Spec.Layout.start digest front chunks i + r]? ≠ some v →
        unpackFrom E (out.set (Spec.Layout.start digest front chunks i + r) v) =
          (.error .checksumMismatch, data.take (i * c.toNat)) := by
  obtain ⟨F, n, c, l, m', rfl, hF, hj, rfl, rfl, -, hcalc, h2, h3⟩ := packBytesToBytes_ok L h
  obtain ⟨-, -, -, -, g5, -, g7, -, g9, -⟩ := packHeader_ok h2
  obtain ⟨hl1, hl2, -, hl4⟩ := File.lookup hF.toPre
  rw [BloscpackHeader.checksumImpl, g5] at hl1
  have hsz4 : (F.impl E).size = 4 := by
    rw [hl4, g5]; rcases hb with hb | hb <;> rw [hb] <;> decide
  refine ⟨n, c, l, (F.impl E).function, F.front E, F.chunks.map (·.1), hcalc, by rw [hl1]; rfl, ?_, ?_, ?_⟩
  · rw [← g7]; exact Layout_of hF hj h3
  · rw [List.length_map, ← hF.nchunks, g9]
  intro i hi r v hr hr2 hv
  have hi' : i < F.chunks.length := by simpa using hi
  have hsplit : F.chunks = F.chunks.take i ++ F.chunks[i] :: F.chunks.drop (i + 1) := by
    rw [List.getElem_cons_drop, List.take_append_drop]
  generalize hp : F.chunks[i] = p at hsplit
  rw [List.getElem_map, hp] at hr
  have hsz := Hash.size_eq L hl2 p.1
  rw [hsz4] at hsz
  have hstart : Spec.Layout.start (F.impl E).function (F.front E) (F.chunks.map (·.1)) i =
      (F.front E ++ Spec.records (F.impl E).function ((F.chunks.take i).map (·.1))).length := by
    simp [Spec.Layout.start, Spec.records, ← List.map_take]
  have hbytes : F.bytes E = (F.front E ++ Spec.records (F.impl E).function ((F.chunks.take i).map (·.1))) ++
      ((p.1 ++ (F.impl E).function p.1) ++ (Spec.records (F.impl E).function ((F.chunks.drop (i + 1)).map (·.1)) ++ F.junk)) := by
    unfold File.bytes File.body
    conv => lhs; rw [hsplit]
    rw [List.map_append, List.map_cons, records_append, records_cons]
    simp
  rw [hstart] at hv ⊢
  rw [hbytes] at hv ⊢
  generalize hQ : F.front E ++ Spec.records (F.impl E).function ((F.chunks.take i).map (·.1)) = Q at hv ⊢
  have hdata : ((F.chunks.take i).map (·.2)).flatten = F.data.take (i * c.toNat) := by rw [hF.take_data, g7]
  rw [List.getElem?_append_right (by omega), Nat.add_sub_cancel_left, List.getElem?_append_left (by rw [List.length_append, hsz]; exact hr)] at hv
  rw [List.set_append_right _ _ (by omega), Nat.add_sub_cancel_left, List.set_append_left _ _ (by rw [List.length_append, hsz]; exact hr)]
  by_cases hin : r < p.1.length
  · -- in the chunk
    rw [List.set_append_left _ _ hin]
    rw [List.getElem?_append_left hin] at hv
    have hne : (F.impl E).function p.1 ≠ (F.impl E).function (p.1.set r v) := by
      intro heq
      have e1 : p.1 = p.1.take r ++ p.1[r] :: p.1.drop (r + 1) := by rw [List.getElem_cons_drop, List.take_append_drop]
      have e2 : p.1.set r v = p.1.take r ++ v :: p.1.drop (r + 1) := by rw [List.set_eq_take_append_cons_drop, if_pos hin]
      rw [e2] at heq
      conv at heq => lhs; rw [e1]
      have := zlib_digest_byte hb hl1 _ _ _ _ heq
      exact hv (by rw [List.getElem?_eq_getElem hin, this])
    have := unpackFrom_corrupt L hF.toValid hsplit (p.1.set r v) ((F.impl E).function p.1) (by simp)
      (slice_set (by omega)) (by rw [hsz, hsz4]) (by omega) hne
    rw [hdata, ← List.append_assoc, hQ] at this
    exact this
  · -- in the digest
    rw [List.set_append_right _ _ (by omega)]
    rw [List.getElem?_append_right (by omega)] at hv
    have hlt : r - p.1.length < ((F.impl E).function p.1).length := by omega
    have hne : ((F.impl E).function p.1).set (r - p.1.length) v ≠ (F.impl E).function p.1 := by
      intro heq
      apply hv
      rw [← heq, List.getElem?_set_self hlt]
    have := unpackFrom_corrupt L hF.toValid hsplit p.1 (((F.impl E).function p.1).set (r - p.1.length) v) rfl
      rfl (by rw [List.length_set, hsz, hsz4]) (by omega) hne
    rw [hdata, ← List.append_assoc, hQ] at this
    exact this

/-- C21: with checksum adler32 or crc32, changing any single byte of a stored chunk outside its length field (bytes 12
to 15), or of its 4 byte digest, makes unpacking raise `ChecksumMismatch`. -/
theorem C21_single_byte (E : Env μ) (L : E.Laws) (data : Bytes) (cs : ChunkSizeArg) (md : Option μ) (a : BloscArgs)
    (b : BloscpackArgs) (m : MetadataArgs) (out : Bytes) (h : packBytesToBytes E data cs md a b m = .ok out)
    (hb : b.checksum = "adler32" ∨ b.checksum = "crc32") :
    ∃ n c l digest front chunks, calculateNchunks data.length cs = .ok (n, c, l) ∧
      (checksumLookup E.hashlib b.checksum).map Hash.function = .ok digest ∧
      Spec.Layout E out data c.toNat a digest front chunks ∧ (chunks.length : Int) = n ∧
      ∀ i (hi : i < chunks.length) (r : Nat) (v : UInt8), r < chunks[i].length + 4 → ¬ (12 ≤ r ∧ r < 16) →
        out[Spec.Layout.start digest front chunks i + r]? ≠ some v →
        unpackBytesFromBytes E (out.set (Spec.Layout.start digest front chunks i + r) v) = .error .checksumMismatch := by
  obtain ⟨n, c, l, digest, front, chunks, h1, h2, h3, h4, h5⟩ := corrupt_byte E L data cs md a b m out h hb
  refine ⟨n, c, l, digest, front, chunks, h1, h2, h3, h4, ?_⟩
  intro i hi r v hr hr2 hv
  exact unpackBytes_error (h5 i hi r v hr hr2 hv) (by decide)

/-- a file with two chunks, adler32 checksums: chunk 1 starts at byte 52, its digest at byte 70 -/
example : (packBytesToBytes Toy.env [1, 2, 3, 4] (.int 2) none {} { offsets := false }).toOption.map List.length = some 76 ∧
    ((packBytesToBytes Toy.env [1, 2, 3, 4] (.int 2) none {} { offsets := false }).toOption.map
      (fun out => (unpackBytesFromBytes Toy.env (out.set 55 77), unpackBytesFromBytes Toy.env (out.set 75 77)))) =
      some (.error .checksumMismatch, .error .checksumMismatch) := by
  decide +kernel

/-! ### C22 -/

theorem accepted_loop {E : Env μ} (L : E.Laws) {h : BloscpackHeader} {impl : Hash} (hi : impl ∈ checksums E.hashlib)
    (fuel i : Nat) (A R O : Bytes) (l lo) (s t : FP)
    (hr : unpackLoop (compressedFPSource h impl) (plainFPSinkPut E) fuel i (Z A R l, Z O [] lo) = (.ok (), (s, t))) :
    ∃ out, Spec.Chunks E impl.function R fuel out ∧ t.data = O ++ out := by
  induction fuel generalizing i A R O lo with
  | zero =>
    simp only [unpackLoop, Proc.pure_apply, Prod.mk.injEq] at hr
    obtain ⟨-, -, rfl⟩ := hr
    exact ⟨[], .done R, by simp⟩
  | succ fuel ih =>
    by_cases h16 : R.length < 16
    · obtain ⟨e, s', he⟩ := unpackLoop_short (E := E) (h := h) (impl := impl) A R l (Z O [] lo) fuel i h16
      rw [he] at hr; cases hr
    have hround := unpackLoop_round (E := E) (h := h) (impl := impl) A R l O lo fuel i (by omega) _ _ _ rfl rfl rfl
    generalize hc : R.take (leDecode (slice R 12 16)) = c at hround
    generalize hdr : R.drop (leDecode (slice R 12 16)) = R1 at hround
    have hR : R = c ++ R1 := by rw [← hc, ← hdr, List.take_append_drop]
    by_cases hbad : R1.take impl.size ≠ [] ∧ R1.take impl.size ≠ impl.function c
    · rw [hround.1 hbad] at hr; cases hr
    cases hd : E.decompress c with
    | error e => rw [(hround.2 hbad).1 e hd] at hr; cases hr
    | ok d =>
      rw [(hround.2 hbad).2 d hd] at hr
      by_cases hdg : R1.take impl.size = impl.function c
      · obtain ⟨out, h1, h2⟩ := ih _ _ _ _ _ hr
        refine ⟨d ++ out, ?_, by rw [h2, List.append_assoc]⟩
        have : R = c ++ impl.function c ++ R1.drop impl.size := by
          rw [List.append_assoc, ← hdg, List.take_append_drop, hR]
        rw [this]
        exact .chunk c d _ fuel out hd h1
      · -- nothing left for the digest
        have hnil : R1.take impl.size = [] := by
          by_cases hx : R1.take impl.size = []
          · exact hx
          · exact absurd ⟨hx, hdg⟩ hbad
        have hsz : impl.size ≠ 0 := by
          intro hz
          rw [hnil, function_none hi hz] at hdg
          exact hdg rfl
        have hR1 : R1 = [] := by
          cases R1 with
          | nil => rfl
          | cons x xs =>
            obtain ⟨k, hk⟩ := Nat.exists_eq_succ_of_ne_zero hsz
            rw [hk] at hnil; simp at hnil
        subst hR1
        rw [List.append_nil] at hR
        subst hR
        cases fuel with
        | zero =>
          simp only [unpackLoop, Proc.pure_apply, Prod.mk.injEq] at hr
          obtain ⟨-, -, rfl⟩ := hr
          exact ⟨d, .undigested R d hd, by simp⟩
        | succ fuel =>
          obtain ⟨e, s', he⟩ := unpackLoop_short (E := E) (h := h) (impl := impl) (A ++ R ++ List.take impl.size [])
            (List.drop impl.size []) l (Z (O ++ d) [] (lo ++ [(O.length, d)])) fuel (i + 1) (by simp)
          rw [he] at hr; cases hr

theorem accepted_loop_any {E : Env μ} (L : E.Laws) {h : BloscpackHeader} {impl : Hash} (hi : impl ∈ checksums E.hashlib)
    (fuel i : Nat) (A R O : Bytes) (l lo) (m : Bool) (s t : FP)
    (hr : unpackLoop (compressedFPSource h impl) (plainFPSinkPut E) fuel i (Z A R l m, Z O [] lo) = (.ok (), (s, t))) :
    ∃ out, Spec.Chunks E impl.function R fuel out ∧ t.data = O ++ out := by
  cases m with
  | false => exact accepted_loop L hi fuel i A R O l lo s t hr
  | true =>
    have h1 := unpackLoop_toMemory h impl (plainFPSinkPut E) fuel i (Z A R l) (Z O [] lo)
    have h2 : (Z A R l).toMemory = Z A R l true := rfl
    rw [h2, hr] at h1
    generalize hq : unpackLoop (compressedFPSource h impl) (plainFPSinkPut E) fuel i (Z A R l, Z O [] lo) = q at h1
    obtain ⟨r, s', t'⟩ := q
    simp only [Prod.mk.injEq] at h1
    obtain ⟨rfl, -, rfl⟩ := h1
    exact accepted_loop L hi fuel i A R O l lo _ _ hq

/-- C22: if unpacking any byte string succeeds, what follows the front matter is a sequence of as many chunks as the
header announces, each with the correct digest (the last one may lack it, at the very end of the input), and the output
is what they decompress to. -/
theorem C22_only_verified (E : Env μ) (L : E.Laws) (input out : Bytes) (md : Option μ)
    (h : unpackBytesFromBytes E input = .ok (out, md)) :
    ∃ hd mh os fp impl, readBeginning E { data := input, inMemory := true } = (.ok (hd, md, mh, os), fp) ∧
      checksumLookup E.hashlib hd.checksum = .ok impl ∧
      Spec.Chunks E impl.function (input.drop fp.pos) hd.nchunks.toNat out := by
  unfold unpackBytesFromBytes at h
  generalize hq : unpackFP E { data := input, inMemory := true } = q at h
  obtain ⟨r, o⟩ := q
  cases r with
  | error e => cases h
  | ok md' =>
    simp only [Except.ok.injEq, Prod.mk.injEq] at h
    obtain ⟨rfl, rfl⟩ := h
    unfold unpackFP at hq
    generalize hb : readBeginning E { data := input, inMemory := true } = q at hq
    obtain ⟨r, fp⟩ := q
    cases r with
    | error e => cases hq
    | ok r =>
      obtain ⟨hd, md2, mh, os⟩ := r
      simp only at hq
      cases hi : hd.checksumImpl E with
      | error e => rw [hi] at hq; cases hq
      | ok impl =>
        rw [hi] at hq
        simp only [Prod.mk.injEq] at hq
        obtain ⟨h1, h2⟩ := hq
        have hfd : fp.data = input := by
          have := readBeginning_data hb
          exact this
        generalize hu : unpack (compressedFPSource hd impl) (plainFPSinkPut E) (fp, { data := [] }) = u at h1 h2
        obtain ⟨ur, s, t⟩ := u
        cases ur with
        | error e => cases h1
        | ok w =>
          simp only [Except.map, Except.ok.injEq] at h1
          subst h1
          refine ⟨hd, mh, os, fp, impl, rfl, hi, ?_⟩
          unfold unpack at hu
          have hn : (compressedFPSource hd impl).nchunks.toNat = hd.nchunks.toNat := rfl
          rw [hn] at hu
          simp only at h2
          by_cases hp : fp.pos ≤ fp.data.length
          · rw [Z_of fp hp] at hu
            have ho : ({ data := [] } : FP) = Z [] [] [] := rfl
            rw [ho] at hu
            obtain ⟨out', h3, h4⟩ := accepted_loop_any L (checksumLookup_mem hi).1 _ _ _ _ _ _ _ _ _ _ hu
            rw [← h2, h4, List.nil_append, ← hfd]
            exact h3
          · cases hk : hd.nchunks.toNat with
            | zero =>
              rw [hk] at hu
              simp only [unpackLoop, Proc.pure_apply, Prod.mk.injEq] at hu
              obtain ⟨-, -, rfl⟩ := hu
              rw [← h2]
              exact .done _
            | succ k =>
              rw [hk] at hu
              obtain ⟨e, s', he⟩ := unpackLoop_exhausted (E := E) (h := hd) (impl := impl) fp { data := [] } k 0 (by omega)
              rw [he] at hu; cases hu

/-- two chunks accepted, the second one without its digest -/
example : (packBytesToBytes Toy.env [1, 2, 3] (.int 2) none {} { offsets := false }).toOption.map
    (fun out => (out.length, unpackBytesFromBytes Toy.env (out.take 71))) = some (75, .ok ([1, 2, 3], none)) := by
  decide +kernel

/-- C22, consequence: if a stored chunk was replaced (keeping its length and length field, and the stored digest) and
unpacking still succeeds, then the two chunks are a collision of the checksum function. -/
theorem C22_collision (E : Env μ) (L : E.Laws) (data : Bytes) (cs : ChunkSizeArg) (md : Option μ) (a : BloscArgs)
    (b : BloscpackArgs) (m : MetadataArgs) (out : Bytes) (h : packBytesToBytes E data cs md a b m = .ok out) :
    ∃ n c l digest front chunks, calculateNchunks data.length cs = .ok (n, c, l) ∧
      (checksumLookup E.hashlib b.checksum).map Hash.function = .ok digest ∧
      Spec.Layout E out data c.toNat a digest front chunks ∧ (chunks.length : Int) = n ∧
      ∀ i (hi : i < chunks.length) (c' : Bytes), c'.length = chunks[i].length →
        slice c' 12 16 = slice chunks[i] 12 16 → ∀ r,
        unpackBytesFromBytes E (front ++ ((chunks.take i).flatMap (fun c => c ++ digest c) ++
          ((c' ++ digest chunks[i]) ++ (chunks.drop (i + 1)).flatMap (fun c => c ++ digest c)))) = .ok r →
        digest c' = digest chunks[i] := by
  obtain ⟨F, n, c, l, m', rfl, hF, hj, rfl, rfl, -, hcalc, h2, h3⟩ := packBytesToBytes_ok L h
  obtain ⟨-, -, -, -, g5, -, g7, -, g9, -⟩ := packHeader_ok h2
  obtain ⟨hl1, hl2, -, hl4⟩ := File.lookup hF.toPre
  rw [BloscpackHeader.checksumImpl, g5] at hl1
  refine ⟨n, c, l, (F.impl E).function, F.front E, F.chunks.map (·.1), hcalc, by rw [hl1]; rfl, ?_, ?_, ?_⟩
  · rw [← g7]; exact Layout_of hF hj h3
  · rw [List.length_map, ← hF.nchunks, g9]
  intro i hi c' hlen hs r hr
  have hi' : i < F.chunks.length := by simpa using hi
  rw [List.getElem_map] at hlen hs hr ⊢
  have hsplit : F.chunks = F.chunks.take i ++ F.chunks[i] :: F.chunks.drop (i + 1) := by
    rw [List.getElem_cons_drop, List.take_append_drop]
  by_cases heq : (F.impl E).function c' = (F.impl E).function F.chunks[i].1
  · exact heq
  exfalso
  by_cases hz : (F.impl E).size = 0
  · apply heq
    rw [function_none hl2 hz, function_none hl2 hz]
  have := unpackFrom_corrupt L hF.toValid hsplit c' ((F.impl E).function F.chunks[i].1) hlen hs
    (Hash.size_eq L hl2 _) hz (fun hx => heq hx.symm)
  rw [hj, List.append_nil] at this
  unfold Spec.records at this
  rw [List.map_take, List.map_drop] at this
  rw [unpackBytes_error this (by decide)] at hr
  cases hr

/-! ### C23 -/

/-- unpacking a truncated packed file -/
theorem truncated_packed (E : Env μ) (L : E.Laws) (data : Bytes) (cs : ChunkSizeArg) (md : Option μ) (a : BloscArgs)
    (b : BloscpackArgs) (m : MetadataArgs) (out : Bytes) (h : packBytesToBytes E data cs md a b m = .ok out)
    (k : Nat) (hk : k < out.length) :
    ∃ n c l, calculateNchunks data.length cs = .ok (n, c, l) ∧
    (k + Spec.digestSize b.checksum ≠ out.length →
      ∃ (e : Err) (i : Nat), (i : Int) ≤ n ∧ unpackFrom E (out.take k) = (.error e, data.take (i * c.toNat))) ∧
    (k + Spec.digestSize b.checksum = out.length → unpackFrom E (out.take k) = (.ok md, data)) := by
  obtain ⟨F, n, c, l, m', rfl, hF, hj, rfl, rfl, -, hcalc, h2, h3⟩ := packBytesToBytes_ok L h
  obtain ⟨-, -, -, -, g5, -, g7, -, g9, -⟩ := packHeader_ok h2
  obtain ⟨hl1, hl2, -, hl4⟩ := File.lookup hF.toPre
  have hn : 1 ≤ F.header.nchunks := hF.n_pos
  have ht := unpackFrom_truncated L hF.toValid hj hn k hk
  rw [hl4, g5] at ht
  refine ⟨n, c, l, hcalc, ?_, ht.2⟩
  intro hx
  obtain ⟨e, i, h4, h5⟩ := ht.1 hx
  refine ⟨e, i, ?_, by rw [h5, hF.take_data, g7]⟩
  rw [← g9, hF.nchunks]; omega

/-- C23, the part that holds: unpacking a proper prefix of a packed file raises, unless exactly the digest of the last
chunk is missing. -/
theorem C23_truncation_partial (E : Env μ) (L : E.Laws) (data : Bytes) (cs : ChunkSizeArg) (md : Option μ) (a : BloscArgs)
    (b : BloscpackArgs) (m : MetadataArgs) (out : Bytes) (h : packBytesToBytes E data cs md a b m = .ok out)
    (k : Nat) (hk : k < out.length) (hd : k + Spec.digestSize b.checksum ≠ out.length) :
    ∃ e, unpackBytesFromBytes E (out.take k) = .error e := by
  obtain ⟨n, c, l, -, h1, -⟩ := truncated_packed E L data cs md a b m out h k hk
  obtain ⟨e, i, -, h2⟩ := h1 hd
  obtain ⟨F, -, -, -, -, rfl, hF, -⟩ := packBytesToBytes_ok L h
  exact ⟨e, unpackBytes_error' h2 (hF.toPre.not_overshoots k)⟩

/-- C23 in full, for files without a checksum: unpacking any proper prefix raises. -/
theorem C23_truncation_without_checksum (E : Env μ) (L : E.Laws) (data : Bytes) (cs : ChunkSizeArg) (md : Option μ)
    (a : BloscArgs) (b : BloscpackArgs) (m : MetadataArgs) (out : Bytes)
    (h : packBytesToBytes E data cs md a b m = .ok out) (hb : b.checksum = "None") (k : Nat) (hk : k < out.length) :
    ∃ e, unpackBytesFromBytes E (out.take k) = .error e :=
  C23_truncation_partial E L data cs md a b m out h k hk (by
    rw [hb, show Spec.digestSize "None" = 0 by decide]; omega)

/-- C23 does not hold: with a checksum, the file without its last digest is accepted. This holds for every packed file,
whatever was packed with whatever settings. -/
theorem C23_violated (E : Env μ) (L : E.Laws) (data : Bytes) (cs : ChunkSizeArg) (md : Option μ) (a : BloscArgs)
    (b : BloscpackArgs) (m : MetadataArgs) (out : Bytes) (h : packBytesToBytes E data cs md a b m = .ok out)
    (hb : Spec.digestSize b.checksum ≠ 0) :
    Spec.digestSize b.checksum < out.length ∧
    unpackBytesFromBytes E (out.take (out.length - Spec.digestSize b.checksum)) = .ok (data, md) := by
  have hlen : Spec.digestSize b.checksum < out.length := by
    obtain ⟨F, n, c, l, m', rfl, hF, hj, rfl, rfl, -, hcalc, h2, h3⟩ := packBytesToBytes_ok L h
    obtain ⟨-, -, -, -, g5, -, g7, -, g9, -⟩ := packHeader_ok h2
    obtain ⟨hl1, hl2, -, hl4⟩ := File.lookup hF.toPre
    obtain ⟨init, p, hch, -⟩ := hF.lengths
    rw [← g5, ← hl4]
    have h5 := Hash.size_eq L hl2 p.1
    have h6 : 32 ≤ (F.front E).length := by
      unfold File.front
      simp [F.header.bytes_length]
    have h7 : (Spec.records (F.impl E).function [p.1]).length = p.1.length + (F.impl E).size := by
      simp [Spec.records, h5]
    unfold File.bytes File.body
    rw [hch, List.map_append, records_append]
    simp only [List.length_append, List.map_cons, List.map_nil, h7]
    omega
  refine ⟨hlen, ?_⟩
  obtain ⟨n, c, l, -, -, h1⟩ := truncated_packed E L data cs md a b m out h (out.length - Spec.digestSize b.checksum) (by omega)
  exact unpackBytes_ok (h1 (by omega))

/-- a file with metadata, offsets and two chunks -/
example : (packBytesToBytes Toy.env [1, 2, 3] (.int 2) (some 5) {} { max_app_chunks := .int 1 }
      { max_meta_size := .int 12, meta_checksum := "None" }).toOption.map
    (fun out => (out.length, [0, 31, 40, 76, 80, 100, 122, 123, 140].map (fun k => (unpackBytesFromBytes Toy.env (out.take k)).toOption.isNone),
      unpackBytesFromBytes Toy.env (out.take 139))) =
      some (143, [true, true, true, true, true, true, true, true, true], .ok ([1, 2, 3], some 5)) := by
  decide +kernel

/-- C23, exactly: a proper prefix of a packed file is accepted if and only if it is the file without the digest of its last chunk, and
then nothing of the data is missing. -/
theorem C23_exact (E : Env μ) (L : E.Laws) (data : Bytes) (cs : ChunkSizeArg) (md : Option μ) (a : BloscArgs)
    (b : BloscpackArgs) (m : MetadataArgs) (out : Bytes) (h : packBytesToBytes E data cs md a b m = .ok out)
    (k : Nat) (hk : k < out.length) (r : Bytes × Option μ) :
    unpackBytesFromBytes E (out.take k) = .ok r ↔ k + Spec.digestSize b.checksum = out.length ∧ r = (data, md) := by
  constructor
  · intro hr
    by_cases hd : k + Spec.digestSize b.checksum = out.length
    · obtain ⟨n, c, l, -, -, h1⟩ := truncated_packed E L data cs md a b m out h k hk
      rw [unpackBytes_ok (h1 hd)] at hr
      cases hr
      exact ⟨hd, rfl⟩
    · obtain ⟨e, he⟩ := C23_truncation_partial E L data cs md a b m out h k hk hd
      rw [he] at hr
      cases hr
  · rintro ⟨hd, rfl⟩
    obtain ⟨n, c, l, -, -, h1⟩ := truncated_packed E L data cs md a b m out h k hk
    exact unpackBytes_ok (h1 hd)

/-! ### C24 -/

/-- C24, truncated input: when `unpack_file_from_file` fails on a proper prefix of a packed file, the output file
contains a number of leading chunks of the data. -/
theorem C24_truncated_output (E : Env μ) (L : E.Laws) (data : Bytes) (cs : ChunkSizeArg) (md : Option μ) (a : BloscArgs)
    (b : BloscpackArgs) (m : MetadataArgs) (packed : Bytes) (h : packBytesToBytes E data cs md a b m = .ok packed)
    (k : Nat) (hk : k < packed.length) (fs fs' : FS) (inp out : String) (hio : inp ≠ out)
    (hin : fs.files inp = some (packed.take k)) (hw : fs.canWrite out = true) (e : Err)
    (hrun : unpackFileFromFile E fs inp out = (.error e, fs')) :
    ∃ n c l, calculateNchunks data.length cs = .ok (n, c, l) ∧
      ∃ j : Nat, (j : Int) ≤ n ∧ fs'.files out = some (data.take (j * c.toNat)) := by
  obtain ⟨n, c, l, hcalc, h1, h2⟩ := truncated_packed E L data cs md a b m packed h k hk
  refine ⟨n, c, l, hcalc, ?_⟩
  have hhead : 32 + 16 ≤ packed.length := by
    obtain ⟨F, -, -, -, -, rfl, hF, -⟩ := packBytesToBytes_ok L h
    obtain ⟨init, p, h1, -⟩ := hF.lengths
    have hp := framed_of_decompress L (hF.chunks_ok p (by rw [h1]; simp))
    have := hp.1
    simp only [File.bytes, File.body, File.front, h1, List.length_append, BloscpackHeader.bytes_length, List.map_append,
      records_append, List.map_cons, List.map_nil, records_cons]
    omega
  unfold unpackFileFromFile FS.getsize FS.openRead FS.openWrite at hrun
  rw [hin] at hrun
  simp only [hw, if_true, current_put_ne hio hin] at hrun
  by_cases hd : k + Spec.digestSize b.checksum = packed.length
  · rw [h2 hd] at hrun
    have hd64 : Spec.digestSize b.checksum ≤ 64 ∧ k ≠ 0 := by
      obtain ⟨F, n, c, l, m', rfl, hF, -, -, -, -, -, h3, -⟩ := packBytesToBytes_ok L h
      obtain ⟨-, -, -, -, g5, -, g7, -, g9, -⟩ := packHeader_ok h3
      obtain ⟨hl1, hl2, -, hl4⟩ := File.lookup hF.toPre
      have hsz : ∀ s ∈ Spec.checksumNames, Spec.digestSize s ≤ 64 := by decide
      have h64 := hsz F.header.checksum hF.toPre.ok.2.1
      rw [g5] at h64
      refine ⟨h64, ?_⟩
      rintro rfl
      obtain ⟨init, p, h1, -⟩ := hF.lengths
      have hp := framed_of_decompress L (hF.chunks_ok p (by rw [h1]; simp))
      have h16 := hp.1
      have := Hash.size_eq L hl2 p.1
      simp only [File.bytes, File.body, File.front, h1, List.length_append, BloscpackHeader.bytes_length, List.map_append,
        records_append, List.map_cons, List.map_nil, records_cons, this] at hd
      rw [hl4, g5] at hd
      omega
    simp only at hrun
    rw [if_neg (by rw [List.length_take]; omega)] at hrun
    cases hrun
  · obtain ⟨e', j, h3, h4⟩ := h1 hd
    rw [h4] at hrun
    simp only [Prod.mk.injEq] at hrun
    refine ⟨j, h3, ?_⟩
    rw [← hrun.2]
    simp [FS.put]

/-- C24, corrupted input: when `unpack_file_from_file` meets a chunk that was changed in one byte as in C21, the output
file contains exactly the chunks before it. -/
theorem C24_corrupted_output (E : Env μ) (L : E.Laws) (data : Bytes) (cs : ChunkSizeArg) (md : Option μ) (a : BloscArgs)
    (b : BloscpackArgs) (m : MetadataArgs) (packed : Bytes) (h : packBytesToBytes E data cs md a b m = .ok packed)
    (hb : b.checksum = "adler32" ∨ b.checksum = "crc32") :
    ∃ n c l digest front chunks, calculateNchunks data.length cs = .ok (n, c, l) ∧
      (checksumLookup E.hashlib b.checksum).map Hash.function = .ok digest ∧
      Spec.Layout E packed data c.toNat a digest front chunks ∧ (chunks.length : Int) = n ∧
      ∀ i (hi : i < chunks.length) (r : Nat) (v : UInt8), r < chunks[i].length + 4 → ¬ (12 ≤ r ∧ r < 16) →
        packed[Spec.Layout.start digest front chunks i + r]? ≠ some v →
        ∀ (fs fs' : FS) (inp out : String) (hio : inp ≠ out) res,
        fs.files inp = some (packed.set (Spec.Layout.start digest front chunks i + r) v) → fs.canWrite out = true →
        unpackFileFromFile E fs inp out = (res, fs') →
        res = .error .checksumMismatch ∧ fs'.files out = some (data.take (i * c.toNat)) := by
  obtain ⟨n, c, l, digest, front, chunks, h1, h2, h3, h4, h5⟩ := corrupt_byte E L data cs md a b m packed h hb
  refine ⟨n, c, l, digest, front, chunks, h1, h2, h3, h4, ?_⟩
  intro i hi r v hr hr2 hv fs fs' inp out hio res hin hw hrun
  unfold unpackFileFromFile FS.getsize FS.openRead FS.openWrite at hrun
  rw [hin] at hrun
  simp only [hw, if_true, current_put_ne hio hin, h5 i hi r v hr hr2 hv, Prod.mk.injEq] at hrun
  refine ⟨hrun.1.symm, ?_⟩
  rw [← hrun.2]
  simp [FS.put]

/-- a file of two chunks, truncated and corrupted in the second chunk: the first chunk comes out -/
example : (packBytesToBytes Toy.env [1, 2, 3, 4] (.int 2) none {} { offsets := false }).toOption.map (fun p =>
    [p.take 60, p.set 70 77].map (fun x =>
      (unpackFileFromFile Toy.env ⟨fun s => if s = "a" then some x else none, fun _ => true⟩ "a" "b").2.files "b")) =
    some [some [1, 2], some [1, 2]] := by
  decide +kernel

/-! ### C45 -/

/-- C45: a file that starts with a valid header of another format version is rejected with `FormatVersionMismatch`, and
nothing is output. -/
theorem C45_version (E : Env μ) (h : BloscpackHeader) (hok : h.OK) (hv : h.format_version ≠ 3) (rest : Bytes) :
    unpackBytesFromBytes E (h.bytes ++ rest) = .error .formatVersionMismatch ∧
    ∀ (fs : FS) (inp out : String) (hio : inp ≠ out), fs.files inp = some (h.bytes ++ rest) → fs.canWrite out = true →
      ∃ fs', unpackFileFromFile E fs inp out = (.error .formatVersionMismatch, fs') ∧ fs'.files out = some [] := by
  have key : unpackFrom E (h.bytes ++ rest) = (.error .formatVersionMismatch, []) := by
    have h1 : readBloscpackHeader { data := h.bytes ++ rest } =
        (.error .formatVersionMismatch, Z h.bytes rest []) := by
      have hrd : fpRead BLOSCPACK_HEADER_LENGTH (Z [] (h.bytes ++ rest) []) = (.ok h.bytes, Z h.bytes rest []) := by
        have := fpRead_Z [] (h.bytes ++ rest) [] 32
        rw [List.take_left' h.bytes_length, List.drop_left' h.bytes_length] at this
        exact this
      show readBloscpackHeader (Z [] (h.bytes ++ rest) []) = _
      unfold readBloscpackHeader
      rw [Proc.bind_of_ok hrd, Proc.bind_of_ok (Proc.ofExcept_apply _ _ |>.trans (by rw [BloscpackHeader.decode_bytes hok])),
        Proc.bind_of_error (e := .formatVersionMismatch) (s' := Z h.bytes rest [])]
      have hne : FORMAT_VERSION ≠ h.format_version := fun hx => hv (by rw [← hx]; rfl)
      rw [Proc.raiseIf_pos hne]
    unfold unpackFrom unpackFP readBeginning
    rw [Proc.bind_of_error h1]
  refine ⟨unpackBytes_error key (by decide), ?_⟩
  intro fs inp out hio hin hw
  unfold unpackFileFromFile FS.getsize FS.openRead FS.openWrite
  rw [hin]
  simp only [hw, if_true, current_put_ne hio hin, key]
  exact ⟨_, rfl, by simp [FS.put]⟩

/-- C45, for packed files: whatever other value the version byte takes -/
theorem C45_packed_version (E : Env μ) (L : E.Laws) (data : Bytes) (cs : ChunkSizeArg) (md : Option μ) (a : BloscArgs)
    (b : BloscpackArgs) (m : MetadataArgs) (out : Bytes) (h : packBytesToBytes E data cs md a b m = .ok out)
    (v : UInt8) (hv : v ≠ 3) :
    unpackBytesFromBytes E (out.set 4 v) = .error .formatVersionMismatch := by
  obtain ⟨F, -, -, -, -, rfl, hF, -⟩ := packBytesToBytes_ok L h
  let H : BloscpackHeader := { F.header with format_version := v.toNat }
  have hok : H.OK := by
    obtain ⟨h1, h2⟩ := hF.toPre.ok
    have := v.toNat_lt
    exact ⟨⟨by show (0 : Int) ≤ (v.toNat : Int); omega, by show (v.toNat : Int) ≤ 255; omega⟩, h2⟩
  have hbytes : (F.header.bytes).set 4 v = H.bytes := by
    have hv8 := v.toNat_lt
    have hver : Spec.leBytes 1 (v.toNat : Int) = [v] := by
      rw [leBytes_one (by omega) (by omega)]; simp
    have hv3 : Spec.leBytes 1 F.header.format_version = [3] := by rw [hF.toPre.version]; rfl
    show _ = Spec.headerBytes (v.toNat : Int) _ _ _ _ _ _ _ _
    unfold BloscpackHeader.bytes Spec.headerBytes
    rw [hver, hv3]
    rfl
  have hset : (F.bytes E).set 4 v = H.bytes ++ ((F.bytes E).drop 32) := by
    have : F.bytes E = F.header.bytes ++ (F.bytes E).drop 32 := by
      have h1 : (F.bytes E).take 32 = F.header.bytes := by
        unfold File.bytes File.front
        simp only [List.append_assoc]
        rw [List.take_left' F.header.bytes_length]
      rw [← h1, List.take_append_drop]
    conv => lhs; rw [this]
    rw [List.set_append_left _ _ (by rw [BloscpackHeader.bytes_length]; omega), hbytes]
  rw [hset]
  refine (C45_version E H hok ?_ _).1
  show (v.toNat : Int) ≠ 3
  intro hx
  apply hv
  have : v.toNat = 3 := by omega
  exact UInt8.toNat_inj.1 (by rw [this]; rfl)

/-- an input of less than 32 bytes, or one that does not start with the magic: reading the header raises `ValueError` -/
theorem not_bloscpack_header (input : Bytes) (hbad : input.length < 32 ∨ input.take 4 ≠ [98, 108, 112, 107]) :
    ∃ s, readBloscpackHeader { data := input } = (.error .valueError, s) := by
  have hrd : fpRead BLOSCPACK_HEADER_LENGTH { data := input } = (.ok (input.take 32), { data := input, pos := (input.take 32).length }) := by
    simp [fpRead_eq, FP.read, BLOSCPACK_HEADER_LENGTH]
  have hdec : BloscpackHeader.decode (input.take 32) = .error .valueError := by
    unfold BloscpackHeader.decode
    by_cases h1 : (input.take 32).length ≠ BLOSCPACK_HEADER_LENGTH
    · rw [if_pos h1]; rfl
    · rw [if_neg h1]
      have h2 : slice (input.take 32) 0 4 ≠ MAGIC := by
        have h3 : (input.take 32).length = 32 := Decidable.not_not.1 h1
        rw [List.length_take] at h3
        rcases hbad with h | h
        · omega
        · intro hx
          apply h
          rw [slice, List.drop_zero, List.take_take] at hx
          exact hx
      rw [if_pos h2]; rfl
  unfold readBloscpackHeader
  rw [Proc.bind_of_ok hrd, Proc.bind_of_error (Proc.ofExcept_apply _ _ |>.trans (by rw [hdec]))]
  exact ⟨_, rfl⟩

/-- C45: an input of less than 32 bytes, or one that does not start with the magic, is rejected with `ValueError`, and
nothing is output. -/
theorem C45_not_bloscpack (E : Env μ) (input : Bytes) (hbad : input.length < 32 ∨ input.take 4 ≠ [98, 108, 112, 107]) :
    unpackBytesFromBytes E input = .error .valueError ∧
    ∀ (fs : FS) (inp out : String) (hio : inp ≠ out), fs.files inp = some input → fs.canWrite out = true →
      ∃ fs', unpackFileFromFile E fs inp out = (.error .valueError, fs') ∧ fs'.files out = some [] := by
  have key : unpackFrom E input = (.error .valueError, []) := by
    obtain ⟨s, h1⟩ := not_bloscpack_header input hbad
    unfold unpackFrom unpackFP readBeginning
    rw [Proc.bind_of_error h1]
  refine ⟨unpackBytes_error key (by decide), ?_⟩
  intro fs inp out hio hin hw
  unfold unpackFileFromFile FS.getsize FS.openRead FS.openWrite
  rw [hin]
  simp only [hw, if_true, current_put_ne hio hin, key]
  exact ⟨_, rfl, by simp [FS.put]⟩

example : (packBytesToBytes Toy.env [1, 2, 3, 4] (.int 2) none {} { offsets := false }).toOption.map (fun p =>
    [p.set 4 2, p.take 31, p.set 0 99].map (fun x => unpackBytesFromBytes Toy.env x)) =
    some [.error .formatVersionMismatch, .error .valueError, .error .valueError] := by
  decide +kernel

end Bloscpack
