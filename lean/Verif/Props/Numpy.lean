import Verif.Lemmas.Numpy
import Verif.Props.RoundTrip
import Verif.Props.Args
import Verif.Lemmas.Repr
import Verif.Examples.JsonEnv
import Verif.Examples.Numpy
/-
C28, C29, C30: packing and unpacking of numpy arrays.
-/
namespace Bloscpack
open Spec (InShape SameArray Tiles)
variable {σ τ τ' : Type}

/-! ### examples for the theorems below -/

/-- a 2 × 3 array of 4 byte integers, its first dimension reversed: neither C nor Fortran contiguous -/
def Toy.view : NdArray := ⟨.scalar (pyStr "<i4") 4, [2, 3], [-4, 8], 104, fun x => UInt8.ofNat x.toNat⟩

/-- a record with a title, a nested record and a sub-array: 1 + (4 + 8) + 2 * 3 bytes -/
def Toy.record : DType :=
  .record (.cons (pyStr "a") (some (pyStr "A")) 0 [] (.scalar (pyStr "|u1") 1)
    (.cons (pyStr "b") none 1 [] (.record (.cons (pyStr "x") none 0 [] (.scalar (pyStr "<i4") 4)
        (.cons (pyStr "y") none 4 [] (.scalar (pyStr "<f8") 8) .nil)) 12)
      (.cons (pyStr "c") none 13 [2] (.scalar (pyStr "|V3") 3) .nil))) 19

/-- a C contiguous array of two such records -/
def Toy.records : NdArray := ⟨Toy.record, [2], [19], 50, fun x => UInt8.ofNat x.toNat⟩

/-- an aligned record: a byte, three bytes of padding, an integer -/
def Toy.aligned : DType := .record (.cons (pyStr "a") none 0 [] (.scalar (pyStr "|u1") 1) (.cons (pyStr "b") none 4 [] (.scalar (pyStr "<i4") 4) .nil)) 8

/-- an array of two of them -/
def Toy.alignedRecords : NdArray := ⟨Toy.aligned, [2], [8], 50, fun x => UInt8.ofNat x.toNat⟩

/-- packing with small tables, and unpacking at address 1000 -/
def Toy.packArray (a : NdArray) (cs : ChunkSizeArg) (room : Int) : Except Err Bytes :=
  packNdarrayToBytes Toy.jsonEnv Toy.numpy a 300 cs {} { max_app_chunks := .int 1 } { meta_codec := "None", max_meta_size := .int room }

/-! ### the source -/

theorem numpyPairs_ok {ptr : Int} {item : Nat} {c l n : Int} {ps : List (Int × Int)} (h : numpyPairs ptr item c l n = .ok ps) :
    item ≠ 0 ∧ (item : Int) ∣ c ∧ ps = (List.range (n - 1).toNat).map (fun i : Nat => (ptr + i * c, c / item)) ++ [(ptr + (n - 1).toNat * c, l / item)] := by
  unfold numpyPairs at h
  split at h
  · cases h
  · split at h
    · cases h
    · rename_i h1 h2
      cases h
      exact ⟨h1, Int.dvd_of_emod_eq_zero (by omega), rfl⟩

theorem tiles_append (item : Nat) (s m e : Int) (p q : List (Int × Int)) (h1 : Tiles item s m p) (h2 : Tiles item m e q) :
    Tiles item s e (p ++ q) := by
  induction p generalizing s with
  | nil => rw [Tiles] at h1; subst h1; exact h2
  | cons x xs ih =>
    obtain ⟨a, b⟩ := x
    rw [Tiles] at h1
    rw [List.cons_append, Tiles]
    exact ⟨h1.1, h1.2.1, ih _ h1.2.2⟩

theorem tiles_range (item : Nat) (ptr c : Int) (hc : 0 ≤ c) (hd : (item : Int) ∣ c) (k : Nat) :
    Tiles item ptr (ptr + k * c) ((List.range k).map (fun i : Nat => (ptr + i * c, c / item))) := by
  induction k with
  | zero => simp [Tiles]
  | succ k ih =>
    rw [List.range_succ, List.map_append]
    refine tiles_append _ _ _ _ _ _ ih ?_
    simp only [List.map_cons, List.map_nil, Tiles]
    refine ⟨trivial, Int.ediv_nonneg hc (by omega), ?_⟩
    rw [Int.ediv_mul_cancel hd]
    simp [Int.add_mul, Int.add_assoc]

/-- C30, packing: when the (address, item count) pairs are handed to blosc, they are consecutive and item-aligned, and cover
exactly the array's buffer; there are as many as chunks were announced, none is empty unless the array is, and none is
longer than the chunk size. -/
theorem C30_pairs_tile (ptr : Int) (itemsize nitems : Nat) (cs : ChunkSizeArg) (n c l : Int) (ps : List (Int × Int))
    (hc : calculateNchunks ((nitems * itemsize : Nat) : Int) cs = .ok (n, c, l)) (h : numpyPairs ptr itemsize c l n = .ok ps) :
    Tiles itemsize ptr (ptr + nitems * itemsize) ps ∧ (ps.length : Int) = n ∧
    (∀ p ∈ ps, p.2 * itemsize ≤ c ∧ (0 < nitems → 1 ≤ p.2)) := by
  obtain ⟨h0, hd, rfl⟩ := numpyPairs_ok h
  obtain ⟨h1, h2, -, h3, h4, h5, h6⟩ := C02_chunking_covers _ _ _ _ _ hc
  have hn : ((n - 1).toNat : Int) = n - 1 := by omega
  have hpos : 0 < nitems → 0 < nitems * itemsize := fun h => Nat.mul_pos h (Nat.pos_of_ne_zero h0)
  have hl0 : 0 ≤ l ∧ 0 ≤ c := by
    by_cases hz : nitems * itemsize = 0
    · have := h5 (by exact_mod_cast hz); omega
    · have := (h6 (by exact_mod_cast hz)).1; omega
  have hdl : (itemsize : Int) ∣ l := by
    have : l = ((nitems * itemsize : Nat) : Int) - c * (n - 1) := by omega
    rw [this]
    exact Int.dvd_sub (by rw [Int.natCast_mul]; exact Int.dvd_mul_left _ _) (Int.dvd_trans hd (Int.dvd_mul_right _ _))
  refine ⟨?_, ?_, ?_⟩
  · refine tiles_append _ _ _ _ _ _ (tiles_range itemsize ptr c hl0.2 hd _) ?_
    simp only [Tiles]
    refine ⟨trivial, Int.ediv_nonneg hl0.1 (by omega), ?_⟩
    rw [Int.ediv_mul_cancel hdl, hn]
    rw [Int.mul_comm] at h1
    rw [Int.natCast_mul] at h1
    omega
  · simp; omega
  · intro p hp
    have hp : p.2 = c / itemsize ∨ p.2 = l / itemsize := by
      rcases List.mem_append.1 hp with hp | hp
      · obtain ⟨i, -, rfl⟩ := List.mem_map.1 hp
        exact .inl rfl
      · rw [List.mem_singleton.1 hp]; exact .inr rfl
    have key : ∀ x : Int, (itemsize : Int) ∣ x → 1 ≤ x → 1 ≤ x / itemsize := by
      rintro x ⟨k, rfl⟩ hx
      rw [Int.mul_ediv_cancel_left _ (Int.natCast_ne_zero.2 h0)]
      by_cases hk : 1 ≤ k
      · exact hk
      · have : (itemsize : Int) * k ≤ 0 := Int.mul_nonpos_of_nonneg_of_nonpos (by omega) (by omega)
        omega
    refine ⟨?_, fun hi => ?_⟩
    · rcases hp with hp | hp
      · rw [hp, Int.ediv_mul_cancel hd]; omega
      · rw [hp, Int.ediv_mul_cancel hdl]; omega
    · have hne : ((nitems * itemsize : Nat) : Int) ≠ 0 := by have := hpos hi; omega
      have := (h6 hne).1
      rcases hp with hp | hp
      · rw [hp]; exact key _ hd (by omega)
      · rw [hp]; exact key _ hdl (by omega)

-- 6 items of 4 bytes, in chunks of 8 bytes
example : calculateNchunks ((6 * 4 : Nat) : Int) (.int 8) = .ok (3, 8, 8) ∧ numpyPairs 300 4 8 8 3 = .ok [(300, 2), (308, 2), (316, 2)] := by
  decide

/-- the memory a source hands to blosc -/
def sourceBuffer (a : NdArray) (alloc : Int) : Bytes :=
  readMem (sourceArray a alloc).mem (sourceArray a alloc).ptr (prodShape a.shape * a.itemsize)

theorem readMany_mem (mem : Int → UInt8) (c l k : Nat) (base : Int) (fp : FP) (h : fp.data.drop fp.pos = readMem mem base (k * c + l)) :
    (readMany (List.replicate k (c : Int) ++ [(l : Int)]) fp).1 =
      (List.range k).map (fun i : Nat => readMem mem (base + i * c) c) ++ [readMem mem (base + k * c) l] := by
  induction k generalizing base fp with
  | zero =>
    simp only [Nat.zero_mul, Nat.zero_add] at h
    simp [readMany, FP.read, h, List.take_of_length_le]
  | succ k ih =>
    rw [List.replicate_succ, List.cons_append, readMany]
    have e : (k + 1) * c + l = c + (k * c + l) := by rw [Nat.succ_mul]; omega
    rw [e, readMem_add] at h
    have h1 : (fp.read c).1 = readMem mem base c := by
      simp [FP.read, h, show ¬ ((c : Int) < 0) by omega, List.take_append_of_le_length]
    have h2 : (fp.read c).2.data.drop (fp.read c).2.pos = readMem mem (base + c) (k * c + l) := by
      have : (fp.read c).2.pos = fp.pos + c := by
        have : (fp.read c).2.pos = fp.pos + (fp.read c).1.length := rfl
        rw [this, h1, readMem_length]
      rw [this, show (fp.read c).2.data = fp.data from rfl, ← List.drop_drop, h]
      rw [List.drop_append_of_le_length (by simp), List.drop_of_length_le (by simp), List.nil_append]
    simp only
    rw [ih _ _ h2, h1, List.range_succ_eq_map]
    simp only [List.map_cons, List.map_map, List.cons_append]
    congr 1
    · simp
    · congr 1
      · apply List.map_congr_left
        intro i _
        simp only [Function.comp]
        congr 1
        simp [Int.add_mul]; omega
      · congr 2
        simp [Int.add_mul]; omega

theorem numpySource_eq (s : NdArray) (nitems : Nat) (cs : ChunkSizeArg) (n c l : Int) (ps : List (Int × Int))
    (hc : calculateNchunks ((nitems * s.itemsize : Nat) : Int) cs = .ok (n, c, l)) (h : numpyPairs s.ptr s.itemsize c l n = .ok ps) :
    plainNumpySource s c l n = plainFPSource { data := readMem s.mem s.ptr (nitems * s.itemsize) } c l n := by
  obtain ⟨h0, hd, rfl⟩ := numpyPairs_ok h
  obtain ⟨h1, h2, -, h3, h4, h5, h6⟩ := C02_chunking_covers _ _ _ _ _ hc
  have hl0 : 0 ≤ l ∧ 0 ≤ c := by
    by_cases hz : nitems * s.itemsize = 0
    · have := h5 (by exact_mod_cast hz); omega
    · have := (h6 (by exact_mod_cast hz)).1; omega
  have hdl : (s.itemsize : Int) ∣ l := by
    have : l = ((nitems * s.itemsize : Nat) : Int) - c * (n - 1) := by omega
    rw [this]
    exact Int.dvd_sub (by rw [Int.natCast_mul]; exact Int.dvd_mul_left _ _) (Int.dvd_trans hd (Int.dvd_mul_right _ _))
  obtain ⟨k, hk⟩ : ∃ k : Nat, (n - 1).toNat = k := ⟨_, rfl⟩
  obtain ⟨c, rfl⟩ := Int.eq_ofNat_of_zero_le hl0.2
  obtain ⟨l, rfl⟩ := Int.eq_ofNat_of_zero_le hl0.1
  have hsz : nitems * s.itemsize = k * c + l := by
    have : (n - 1 : Int) = k := by clear h1 hdl hd h5 h6 h4 hl0; omega
    rw [this] at h1
    have : ((k * c + l : Nat) : Int) = (nitems * s.itemsize : Nat) := by rw [← h1]; simp [Int.mul_comm]
    omega
  unfold plainNumpySource plainFPSource
  rw [h]
  simp only [hk]
  rw [readMany_mem s.mem c l k s.ptr _ (by simp [hsz])]
  simp only [List.map_append, List.map_map, List.map_cons, List.map_nil, Function.comp_def, Int.ediv_mul_cancel hd, Int.ediv_mul_cancel hdl, Int.toNat_natCast]

/-! ### packing -/

/-- if the source stops with an exception before the first chunk, that is the outcome, unless packing fails before -/
theorem pack_stop {μ : Type} (E : Env μ) (src src' : PlainSource) (sink : CompressedSink μ σ) (n c l : Int) (md : Option μ)
    (a : BloscArgs) (b : BloscpackArgs) (m : MetadataArgs) (s : σ) (e : Err) (hs : src c l n = ⟨[], some e⟩) :
    ((∃ m' s', pack E src' sink n c l md a b m s = (.ok m', s')) → ∃ s', pack E src sink n c l md a b m s = (.error e, s')) ∧
    ∀ m' s', pack E src sink n c l md a b m s ≠ (.ok m', s') := by
  unfold pack
  simp only [hs]
  constructor
  · rintro ⟨m', s', h⟩
    rw [Proc.bind_ok_iff] at h
    obtain ⟨hd, s1, h1, h⟩ := h
    rw [Proc.bind_of_ok h1]
    rw [Proc.bind_ok_iff] at h
    obtain ⟨_, s2, h2, h⟩ := h
    rw [Proc.bind_of_ok h2]
    rw [Proc.bind_ok_iff] at h
    obtain ⟨_, s3, h3, h⟩ := h
    rw [Proc.bind_of_ok h3]
    rw [Proc.bind_ok_iff] at h
    obtain ⟨_, s4, h4, h⟩ := h
    rw [Proc.bind_of_ok h4]
    rw [Proc.bind_ok_iff] at h
    obtain ⟨_, s5, h5, -⟩ := h
    rw [Proc.bind_of_ok h5]
    exact ⟨s5, rfl⟩
  · intro m' s' h
    rw [Proc.bind_ok_iff] at h
    obtain ⟨_, _, -, h⟩ := h
    rw [Proc.bind_ok_iff] at h
    obtain ⟨_, _, -, h⟩ := h
    rw [Proc.bind_ok_iff] at h
    obtain ⟨_, _, -, h⟩ := h
    rw [Proc.bind_ok_iff] at h
    obtain ⟨_, _, -, h⟩ := h
    rw [Proc.bind_ok_iff] at h
    obtain ⟨_, _, -, h⟩ := h
    rw [Proc.bind_ok_iff] at h
    obtain ⟨_, _, -, h⟩ := h
    cases h

/-- `pack_ndarray_to_bytes` packs the array's buffer like `pack_bytes_to_bytes`, with the array's description as metadata and
its item size as typesize -/
theorem packNdarray_cases (E : Env Json) (L : E.Laws) (lib : NumpyLib) (a : NdArray) (alloc : Int) (cs : ChunkSizeArg)
    (blosc : BloscArgs) (b : BloscpackArgs) (m : MetadataArgs) :
    (a.dtype.hasObject = true ∧ packNdarrayToBytes E lib a alloc cs blosc b m = .error .objectNumpyArrayRejection) ∨
    (a.dtype.hasObject = false ∧
      ((∃ e, ndarrayMeta lib a = .error e ∧ packNdarrayToBytes E lib a alloc cs blosc b m = .error e) ∨
       ∃ md, ndarrayMeta lib a = .ok md ∧
        ((∃ e, calculateNchunks ((prodShape a.shape * a.itemsize : Nat) : Int) cs = .error e ∧
            packNdarrayToBytes E lib a alloc cs blosc b m = .error e) ∨
         ∃ n c l, calculateNchunks ((prodShape a.shape * a.itemsize : Nat) : Int) cs = .ok (n, c, l) ∧
          ((∃ e, numpyPairs (sourceArray a alloc).ptr a.itemsize c l n = .error e ∧
              (∀ out, packNdarrayToBytes E lib a alloc cs blosc b m ≠ .ok out) ∧
              ((∃ out, packBytesToBytes E (sourceBuffer a alloc) cs (some md) { blosc with typesize := a.itemsize } b m = .ok out) →
                packNdarrayToBytes E lib a alloc cs blosc b m = .error e)) ∨
           ∃ ps, numpyPairs (sourceArray a alloc).ptr a.itemsize c l n = .ok ps ∧
              packNdarrayToBytes E lib a alloc cs blosc b m =
                packBytesToBytes E (sourceBuffer a alloc) cs (some md) { blosc with typesize := a.itemsize } b m)))) := by
  have hitem : (sourceArray a alloc).itemsize = a.itemsize := by unfold sourceArray; split <;> rfl
  have hlen : (sourceBuffer a alloc).length = prodShape a.shape * a.itemsize := by simp [sourceBuffer]
  unfold packNdarrayToBytes packNdarray
  cases ho : a.dtype.hasObject with
  | true =>
    refine .inl ⟨rfl, ?_⟩
    rw [Proc.bind_of_error (e := .objectNumpyArrayRejection) (s' := { fp := { data := [] } }) (by simp [Proc.raiseIf, Proc.raise])]
  | false =>
    refine .inr ⟨rfl, ?_⟩
    rw [Proc.bind_of_ok (a := ()) (s' := { fp := { data := [] } }) (by simp [Proc.raiseIf, Proc.pure])]
    cases hmd : ndarrayMeta lib a with
    | error e =>
      refine .inl ⟨e, rfl, ?_⟩
      rw [Proc.bind_of_error (Proc.ofExcept_apply _ _)]
    | ok md =>
      refine .inr ⟨md, rfl, ?_⟩
      rw [Proc.bind_of_ok (Proc.ofExcept_apply _ _)]
      cases hc : calculateNchunks ((prodShape a.shape * a.itemsize : Nat) : Int) cs with
      | error e =>
        refine .inl ⟨e, rfl, ?_⟩
        rw [Proc.bind_of_error (Proc.ofExcept_apply _ _)]
      | ok r =>
        obtain ⟨n, c, l⟩ := r
        refine .inr ⟨n, c, l, rfl, ?_⟩
        rw [Proc.bind_of_ok (Proc.ofExcept_apply _ _)]
        simp only
        cases hp : numpyPairs (sourceArray a alloc).ptr a.itemsize c l n with
        | error e =>
          refine .inl ⟨e, rfl, ?_⟩
          have hs : plainNumpySource (sourceArray a alloc) c l n = ⟨[], some e⟩ := by
            unfold plainNumpySource; rw [hitem, hp]
          obtain ⟨q1, q2⟩ := pack_stop E _ (plainFPSource { data := sourceBuffer a alloc }) (compressedFPSink E) n c l (some md) { blosc with typesize := a.itemsize } b m
            { fp := { data := [] } } e hs
          constructor
          · intro out h
            generalize hr : pack E (plainNumpySource (sourceArray a alloc)) (compressedFPSink E) n c l (some md) _ b m _ = r at h q2
            obtain ⟨x, s'⟩ := r
            cases x with
            | ok m' => exact q2 m' s' rfl
            | error e' => rw [Proc.bind_of_error hr] at h; cases h
          · rintro ⟨out, h⟩
            rw [packBytesToBytes_eq, packBytes, hlen, hc] at h
            simp only at h
            obtain ⟨s', hs'⟩ := q1 (by
              generalize pack E (plainFPSource { data := sourceBuffer a alloc }) (compressedFPSink E) n c l (some md) _ b m _ = r at h
              obtain ⟨x, s'⟩ := r
              cases x with
              | ok m' => exact ⟨m', s', rfl⟩
              | error e' => cases h)
            rw [Proc.bind_of_error hs']
        | ok ps =>
          refine .inr ⟨ps, rfl, ?_⟩
          have hs := numpySource_eq (sourceArray a alloc) (prodShape a.shape) cs n c l ps (by rw [hitem]; exact hc) (by rw [hitem]; exact hp)
          rw [hitem] at hs
          have hpk : pack E (plainNumpySource (sourceArray a alloc)) (compressedFPSink E) n c l (some md) { blosc with typesize := a.itemsize } b m =
              pack E (plainFPSource { data := sourceBuffer a alloc }) (compressedFPSink E) n c l (some md) { blosc with typesize := a.itemsize } b m := by
            unfold pack
            rw [hs]
            rfl
          rw [hpk, packBytesToBytes_eq]
          generalize hq : packBytes E (sourceBuffer a alloc) cs (some md) { blosc with typesize := a.itemsize } b m = q
          have hq' := hq
          rw [packBytes, hlen, hc] at hq
          simp only at hq
          generalize hr : pack E (plainFPSource { data := sourceBuffer a alloc }) (compressedFPSink E) n c l (some md) _ b m _ = r at hq
          obtain ⟨x, s'⟩ := r
          cases x with
          | error e' => rw [Proc.bind_of_error hr, ← hq]
          | ok m' =>
            rw [Proc.bind_of_ok hr, ← hq]
            rw [← hq] at hq'
            obtain ⟨fp', -, -, -, -, h1, -, -, -, -, -, -, -, -, -, h11⟩ := packBytes_ok L hq'
            cases h1
            simp only [if_neg h11, Proc.pure]

/-! ### the sink -/

/-- two sinks that behave the same and whose states stay related -/
theorem unpackLoop_sim (src : CompressedSource σ) (p : Bytes → Proc τ Unit) (q : Bytes → Proc τ' Unit) (R : τ → τ' → Prop)
    (hput : ∀ c t t', R t t' → (p c t).1 = (q c t').1 ∧ R (p c t).2 (q c t').2) (fuel i : Nat) (s : σ) (t : τ) (t' : τ') (h : R t t') :
    (unpackLoop src p fuel i (s, t)).1 = (unpackLoop src q fuel i (s, t')).1 ∧
    (unpackLoop src p fuel i (s, t)).2.1 = (unpackLoop src q fuel i (s, t')).2.1 ∧
    R (unpackLoop src p fuel i (s, t)).2.2 (unpackLoop src q fuel i (s, t')).2.2 := by
  induction fuel generalizing i s t t' with
  | zero => exact ⟨rfl, rfl, h⟩
  | succ fuel ih =>
    unfold unpackLoop
    generalize hq : src.next i s = r
    obtain ⟨r, s'⟩ := r
    have h1 : ∀ {τ : Type} (t : τ), Proc.onFst (τ := τ) (src.next i) (s, t) = (r, (s', t)) := by intro _ t; simp [Proc.onFst, hq]
    cases r with
    | error e =>
      rw [Proc.bind_of_error (h1 t), Proc.bind_of_error (h1 t')]
      exact ⟨rfl, rfl, h⟩
    | ok cd =>
      rw [Proc.bind_of_ok (h1 t), Proc.bind_of_ok (h1 t')]
      cases hk : checkDigest src.checksumImpl cd.1 cd.2 with
      | error e =>
        rw [Proc.bind_of_error (Proc.ofExcept_apply _ _), Proc.bind_of_error (Proc.ofExcept_apply _ _)]
        exact ⟨rfl, rfl, h⟩
      | ok u =>
        rw [Proc.bind_of_ok (Proc.ofExcept_apply _ _), Proc.bind_of_ok (Proc.ofExcept_apply _ _)]
        have hp := hput cd.1 t t' h
        generalize h3 : p cd.1 t = x at hp
        generalize h4 : q cd.1 t' = y at hp
        obtain ⟨x, t2⟩ := x
        obtain ⟨y, t2'⟩ := y
        obtain ⟨rfl, hR⟩ := hp
        have h5 : Proc.onSnd (τ := σ) (p cd.1) (s', t) = (x, (s', t2)) := by simp [Proc.onSnd, h3]
        have h6 : Proc.onSnd (τ := σ) (q cd.1) (s', t') = (x, (s', t2')) := by simp [Proc.onSnd, h4]
        cases x with
        | error e => rw [Proc.bind_of_error h5, Proc.bind_of_error h6]; exact ⟨rfl, rfl, hR⟩
        | ok u => rw [Proc.bind_of_ok h5, Proc.bind_of_ok h6]; exact ih _ _ _ _ hR

/-- the array's memory receives what `unpack_bytes` would have returned -/
theorem unpackNdarray_fp (E : Env Json) (lib : NumpyLib) (input : FP) (alloc : Int) (mem : Int → UInt8) :
    (∃ e, unpackFP E input = (.error e, []) ∧ unpackNdarray E lib input alloc mem = (.error e, mem)) ∨
    ∃ md, ((∃ e, plainNumpySink lib md alloc mem = .error e ∧ unpackNdarray E lib input alloc mem = (.error e, mem)) ∨
      ∃ a, plainNumpySink lib md alloc mem = .ok a ∧
        unpackNdarray E lib input alloc mem =
          ((unpackFP E input).1.map (fun _ => { a with mem := writeMem mem alloc (unpackFP E input).2 }),
            writeMem mem alloc (unpackFP E input).2)) ∧
      ∀ md', (unpackFP E input).1 = .ok md' → md' = md := by
  unfold unpackNdarray unpackFP
  generalize readBeginning E input = r
  obtain ⟨r, fp⟩ := r
  cases r with
  | error e => exact .inl ⟨e, rfl, rfl⟩
  | ok r =>
    obtain ⟨h, md, x, y⟩ := r
    simp only
    cases hi : h.checksumImpl E with
    | error e => exact .inl ⟨e, rfl, rfl⟩
    | ok impl =>
      simp only
      refine .inr ⟨md, ?_, ?_⟩
      · cases hs : plainNumpySink lib md alloc mem with
        | error e => exact .inl ⟨e, rfl, rfl⟩
        | ok a =>
          refine .inr ⟨a, rfl, ?_⟩
          simp only
          have hsim := unpackLoop_sim (compressedFPSource h impl) (numpySinkPut E) (plainFPSinkPut E)
            (fun t t' => ∃ A lo, t' = Z A [] lo ∧ t = (writeMem mem alloc A, alloc + A.length)) (by
              rintro c t t' ⟨A, lo, rfl, rfl⟩
              unfold numpySinkPut plainFPSinkPut
              cases hd : E.decompress c with
              | error e =>
                rw [Proc.bind_of_error (Proc.ofExcept_apply _ _), Proc.bind_of_error (Proc.ofExcept_apply _ _)]
                exact ⟨rfl, A, lo, rfl, rfl⟩
              | ok d =>
                rw [Proc.bind_of_ok (Proc.ofExcept_apply _ _), Proc.bind_of_ok (Proc.ofExcept_apply _ _), fpWrite_Z]
                refine ⟨rfl, A ++ d, lo ++ [(A.length, d)], by simp, ?_⟩
                simp [Proc.modify, writeMem_append, Int.add_assoc])
            (compressedFPSource h impl).nchunks.toNat 0 fp (mem, alloc) { data := [] } ⟨[], [], rfl, by simp [writeMem_nil]⟩
          obtain ⟨h1, -, A, lo, h3, h4⟩ := hsim
          unfold unpack
          rw [h1, h3, h4]
          simp only [Z, List.append_nil]
          congr 1
          cases (unpackLoop (compressedFPSource h impl) (plainFPSinkPut E) _ 0 (fp, { data := [] })).1 <;> rfl
      · intro md' h
        generalize (unpack (compressedFPSource _ _) _ _).1 = q at h
        cases q with
        | error e => cases h
        | ok u => cases h; rfl

theorem unpackNdarray_cases (E : Env Json) (lib : NumpyLib) (bytes : Bytes) (alloc : Int) (mem : Int → UInt8) :
    (∃ e, unpackFP E { data := bytes, inMemory := true } = (.error e, []) ∧ unpackNdarrayFromBytes E lib bytes alloc mem = (.error e, mem)) ∨
    ∃ md, ((∃ e, plainNumpySink lib md alloc mem = .error e ∧ unpackNdarrayFromBytes E lib bytes alloc mem = (.error e, mem)) ∨
      ∃ a, plainNumpySink lib md alloc mem = .ok a ∧
        unpackNdarrayFromBytes E lib bytes alloc mem =
          ((unpackFP E { data := bytes, inMemory := true }).1.map (fun _ => { a with mem := writeMem mem alloc (unpackFP E { data := bytes, inMemory := true }).2 }),
            writeMem mem alloc (unpackFP E { data := bytes, inMemory := true }).2)) ∧
      ∀ md', (unpackFP E { data := bytes, inMemory := true }).1 = .ok md' → md' = md :=
  unpackNdarray_fp E lib { data := bytes, inMemory := true } alloc mem

theorem dimsOf_ints (shape : List Nat) : dimsOf (shape.map (fun n : Nat => .int n)) = .ok shape := by
  induction shape with
  | nil => rfl
  | cons n ns ih =>
    rw [List.map_cons, dimsOf, ih]
    simp [bind, Except.bind, pure, Except.pure]

/-- the description of an array leads back to its dtype, shape and order -/
theorem plainNumpySink_meta (lib : NumpyLib) (a : NdArray) (hg : Spec.GapFree a.dtype) (hk : Spec.Known lib a.dtype) :
    ∃ md, ndarrayMeta lib a = .ok md ∧ ∀ alloc mem, plainNumpySink lib (some md) alloc mem =
      .ok ⟨a.dtype, a.shape, if a.isFortran then fStrides a.itemsize a.shape else cStrides a.itemsize a.shape, alloc, mem⟩ := by
  obtain ⟨l, h1, h2⟩ := dtypeOf_descr lib a.dtype hg hk
  refine ⟨_, by rw [ndarrayMeta, h1]; rfl, ?_⟩
  intro alloc mem
  have k1 : ¬ pyStr "dtype" = pyStr "container" := by decide
  have k2 : ¬ pyStr "shape" = pyStr "container" := by decide
  have k3 : ¬ pyStr "order" = pyStr "container" := by decide
  have k4 : ¬ pyStr "dtype" = pyStr "shape" := by decide
  have k5 : ¬ pyStr "dtype" = pyStr "order" := by decide
  have k6 : ¬ pyStr "shape" = pyStr "order" := by decide
  have k7 : ¬ pyStr "C" = pyStr "F" := by decide
  simp only [plainNumpySink, Json.item, lookupKey, k1, k2, k3, k4, k5, k6, if_false, if_true, metaDescr, NumpyLib.repr, literalEval_repr,
    isNumpy, shapeArg, dimsOf_ints, h2, Except.ok_bind', beq_self_eq_true, Bool.true_eq_false]
  cases a.isFortran <;> simp [orderArg, k7, Except.ok_bind', pure, Except.pure, NdArray.itemsize]

/-- an array whose buffer, at its order's contiguous strides, is the source's buffer, has the source's elements -/
theorem sourceBuffer_item (a : NdArray) (alloc alloc' : Int) (mem : Int → UInt8) (hs : a.strides.length = a.shape.length) (idx : List Nat)
    (hi : InShape a.shape idx) :
    (⟨a.dtype, a.shape, if a.isFortran then fStrides a.itemsize a.shape else cStrides a.itemsize a.shape, alloc',
      writeMem mem alloc' (sourceBuffer a alloc)⟩ : NdArray).item idx = a.item idx := by
  have hlen : (sourceBuffer a alloc).length = prodShape a.shape * a.itemsize := by simp [sourceBuffer]
  have hz := InShape.no_zero hi
  have key : ∀ o : Nat, o + a.itemsize ≤ a.itemsize * prodShape a.shape →
      readMem (writeMem mem alloc' (sourceBuffer a alloc)) (alloc' + o) a.itemsize = slice (sourceBuffer a alloc) o (o + a.itemsize) := by
    intro o ho
    rw [← readMem_slice _ _ (prodShape a.shape * a.itemsize) _ _ (by rw [Nat.mul_comm]; exact ho), ← hlen, readMem_writeMem]
  by_cases hf : a.isFortran = true
  · simp only [NdArray.item, hf, if_true]
    obtain ⟨o, h1, h2⟩ := fOffset a.itemsize a.shape idx hi
    have hfc : fStridesOk a.itemsize a.shape a.strides = true := by
      have : a.fContiguous = true := by unfold NdArray.isFortran at hf; simp at hf; exact hf.1
      unfold NdArray.fContiguous at this
      rw [hz] at this
      exact this
    rw [fStridesOk_offset a.itemsize a.shape a.strides idx hs hi hfc, h1]
    rw [show NdArray.itemsize ⟨a.dtype, a.shape, fStrides a.itemsize a.shape, alloc', writeMem mem alloc' (sourceBuffer a alloc)⟩ = a.itemsize from rfl, key o h2]
    have : sourceArray a alloc = a := by unfold sourceArray; rw [if_neg (by simp [hf])]
    rw [sourceBuffer, this, readMem_slice _ _ _ _ _ (by rw [Nat.mul_comm]; exact h2)]
  · have hf : a.isFortran = false := by simpa using hf
    simp only [NdArray.item, hf, Bool.false_eq_true, if_false]
    obtain ⟨o, h1, h2⟩ := cOffset a.itemsize a.shape idx hi
    rw [h1, show NdArray.itemsize ⟨a.dtype, a.shape, cStrides a.itemsize a.shape, alloc', writeMem mem alloc' (sourceBuffer a alloc)⟩ = a.itemsize from rfl, key o h2]
    by_cases hc : a.cContiguous = true
    · have hcc : cStridesOk a.itemsize a.shape a.strides = true := by
        unfold NdArray.cContiguous at hc
        rw [hz] at hc
        exact hc
      have : sourceArray a alloc = a := by unfold sourceArray; rw [if_neg (by simp [hc])]
      rw [cStridesOk_offset a.itemsize a.shape a.strides idx hs hi hcc, h1, sourceBuffer, this,
        readMem_slice _ _ _ _ _ (by rw [Nat.mul_comm]; exact h2)]
    · have : sourceArray a alloc = a.toContiguous alloc := by unfold sourceArray; rw [if_pos ⟨hf, by simpa using hc⟩]
      have hfl := indices_flatMap_length a.itemsize a.shape a.item (by intro idx; simp [NdArray.item])
      have : sourceBuffer a alloc = (indices a.shape).flatMap a.item := by
        rw [sourceBuffer, this]
        simp only [NdArray.toContiguous]
        rw [Nat.mul_comm, ← hfl, readMem_writeMem]
      rw [this, indices_flatMap_slice a.itemsize a.shape idx a.item (by intro idx; simp [NdArray.item]) hi o h1]
      rfl

/-! ### C28 -/

/-- if an array is packed, its buffer and description are what `pack_bytes` would have packed -/
theorem packNdarray_ok {E : Env Json} (L : E.Laws) {lib : NumpyLib} {a : NdArray} {alloc : Int} {cs : ChunkSizeArg} {blosc : BloscArgs}
    {b : BloscpackArgs} {m : MetadataArgs} {out : Bytes} (h : packNdarrayToBytes E lib a alloc cs blosc b m = .ok out) :
    ∃ md, ndarrayMeta lib a = .ok md ∧ unpackFrom E out = (.ok (some md), sourceBuffer a alloc) := by
  rcases packNdarray_cases E L lib a alloc cs blosc b m with ⟨-, h1⟩ | ⟨-, ⟨e, -, h1⟩ | ⟨md, hmd, ⟨e, -, h1⟩ | ⟨n, c, l, -, ⟨e, -, h1, -⟩ | ⟨ps, -, h1⟩⟩⟩⟩
  · rw [h1] at h; cases h
  · rw [h1] at h; cases h
  · rw [h1] at h; cases h
  · exact absurd h (h1 out)
  · rw [h1] at h
    exact ⟨md, hmd, packed_unpackFrom L h⟩

/-- unpacking of valid data with the description of an array -/
theorem unpackNdarray_meta_fp (E : Env Json) (lib : NumpyLib) (a : NdArray) (hg : Spec.GapFree a.dtype)
    (hk : Spec.Known lib a.dtype) (md : Json) (hmd : ndarrayMeta lib a = .ok md) (input : FP) (data : Bytes)
    (h : unpackFP E input = (.ok (some md), data)) (alloc : Int) (mem : Int → UInt8) :
    unpackNdarray E lib input alloc mem =
      (.ok ⟨a.dtype, a.shape, if a.isFortran then fStrides a.itemsize a.shape else cStrides a.itemsize a.shape, alloc, writeMem mem alloc data⟩,
        writeMem mem alloc data) := by
  obtain ⟨md', hmd', hsink⟩ := plainNumpySink_meta lib a hg hk
  rw [hmd] at hmd'
  cases hmd'
  rcases unpackNdarray_fp E lib input alloc mem with ⟨e, h1, -⟩ | ⟨md', hh, h2⟩
  · rw [h] at h1; cases h1
  · rw [h] at hh h2
    cases h2 _ rfl
    rw [hsink] at hh
    rcases hh with ⟨e, h1, -⟩ | ⟨r, h1, h2⟩
    · cases h1
    · cases h1
      exact h2

theorem unpackNdarray_meta (E : Env Json) (lib : NumpyLib) (a : NdArray) (hg : Spec.GapFree a.dtype)
    (hk : Spec.Known lib a.dtype) (md : Json) (hmd : ndarrayMeta lib a = .ok md) (bytes data : Bytes)
    (h : unpackFrom E bytes = (.ok (some md), data)) (alloc : Int) (mem : Int → UInt8) :
    unpackNdarrayFromBytes E lib bytes alloc mem =
      (.ok ⟨a.dtype, a.shape, if a.isFortran then fStrides a.itemsize a.shape else cStrides a.itemsize a.shape, alloc, writeMem mem alloc data⟩,
        writeMem mem alloc data) :=
  unpackNdarray_meta_fp E lib a hg hk md hmd _ data (unpackFP_of_ok h) alloc mem

/-- C28: whatever `pack_ndarray_to_bytes` returns for an array of any memory layout, `unpack_ndarray_from_bytes` turns back into
an array with the same dtype, shape and elements. Missing for the full property: types with gaps between or behind their
fields (`C28_violated`). -/
theorem C28_roundtrip_partial (E : Env Json) (L : E.Laws) (lib : NumpyLib) (a : NdArray) (alloc : Int) (cs : ChunkSizeArg)
    (blosc : BloscArgs) (b : BloscpackArgs) (m : MetadataArgs) (out : Bytes) (hs : a.strides.length = a.shape.length)
    (hg : Spec.GapFree a.dtype) (hk : Spec.Known lib a.dtype) (h : packNdarrayToBytes E lib a alloc cs blosc b m = .ok out)
    (alloc' : Int) (mem : Int → UInt8) :
    ∃ r, (unpackNdarrayFromBytes E lib out alloc' mem).1 = .ok r ∧ SameArray a r := by
  obtain ⟨md, hmd, hu⟩ := packNdarray_ok L h
  rw [unpackNdarray_meta E lib a hg hk md hmd out _ hu]
  exact ⟨_, rfl, rfl, rfl, fun idx hi => sourceBuffer_item a alloc alloc' mem hs idx hi⟩

theorem Toy.view_known : Toy.view.strides.length = Toy.view.shape.length ∧ Spec.GapFree Toy.view.dtype ∧ Spec.Known Toy.numpy Toy.view.dtype := by
  refine ⟨rfl, ?_, ?_⟩
  · simp [Toy.view, Spec.GapFree]
  · simp only [Toy.view, Spec.Known]; decide

theorem Toy.records_known : Toy.records.strides.length = Toy.records.shape.length ∧ Spec.GapFree Toy.records.dtype ∧ Spec.Known Toy.numpy Toy.records.dtype := by
  refine ⟨rfl, ?_, ?_⟩
  · simp [Toy.records, Toy.record, Spec.GapFree, Spec.GapFreeFrom, prodShape, DType.size]
  · simp only [Toy.records, Toy.record, Spec.Known, Spec.KnownFields]; decide

-- both are packed, the strided array in three chunks
example : (Toy.packArray Toy.view (.int 8) 200).toBool = true ∧ (Toy.packArray Toy.records (.int 19) 300).toBool = true := by decide +kernel

-- and unpacked: element (1, 2)
example : (do
    let out ← Toy.packArray Toy.view (.int 8) 74
    let u ← (unpackNdarrayFromBytes Toy.jsonEnv Toy.numpy out 1000 (fun _ => 0)).1
    return (u.item [1, 2], Toy.view.item [1, 2])).toOption = some ([116, 117, 118, 119], [116, 117, 118, 119]) := by
  decide +kernel

/-- C28 is violated: an array of a type with a gap between or behind its fields (an aligned record, say) is never unpacked with
the same dtype, from no bytes whatever. -/
theorem C28_violated (E : Env Json) (lib : NumpyLib) (a r : NdArray) (hgap : ¬ Spec.GapFree a.dtype) (bytes : Bytes) (alloc : Int)
    (mem : Int → UInt8) (h : (unpackNdarrayFromBytes E lib bytes alloc mem).1 = .ok r) : ¬ SameArray a r := by
  intro hsame
  apply hgap
  rw [← hsame.dtype]
  have hsk : ∀ md x, plainNumpySink lib md alloc mem = .ok x → Spec.GapFree x.dtype := by
    intro md x hx
    unfold plainNumpySink at hx
    cases md with
    | none => cases hx
    | some md =>
      obtain ⟨c, -, hx⟩ := Except.bind_ok_iff.1 hx
      split at hx
      · cases hx
      · simp only [Except.bind_ok_iff] at hx
        obtain ⟨y, -, d, -, z, -, t, h6, f, -, sh, -, o, -, hx⟩ := hx
        cases hx
        exact dtypeOf_gapFree lib d _ h6
  rcases unpackNdarray_cases E lib bytes alloc mem with ⟨e, -, h1⟩ | ⟨md, ⟨e, -, h1⟩ | ⟨x, hx, h1⟩, -⟩
  · rw [h1] at h; cases h
  · rw [h1] at h; cases h
  · rw [h1] at h
    cases hq : (unpackFP E { data := bytes, inMemory := true }).1 with
    | error e => rw [hq] at h; cases h
    | ok q =>
      rw [hq] at h
      cases h
      exact hsk md x hx

/-- C28, exactly: an array that was packed is unpacked to the same array if and only if its type has no gaps. -/
theorem C28_exact (E : Env Json) (L : E.Laws) (lib : NumpyLib) (a : NdArray) (alloc : Int) (cs : ChunkSizeArg)
    (blosc : BloscArgs) (b : BloscpackArgs) (m : MetadataArgs) (out : Bytes) (hs : a.strides.length = a.shape.length)
    (hk : Spec.Known lib a.dtype) (h : packNdarrayToBytes E lib a alloc cs blosc b m = .ok out) (alloc' : Int) (mem : Int → UInt8) :
    (∃ r, (unpackNdarrayFromBytes E lib out alloc' mem).1 = .ok r ∧ SameArray a r) ↔ Spec.GapFree a.dtype := by
  constructor
  · rintro ⟨r, h1, h2⟩
    exact Classical.byContradiction fun hg => C28_violated E lib a r hg out alloc' mem h1 h2
  · intro hg
    exact C28_roundtrip_partial E L lib a alloc cs blosc b m out hs hg hk h alloc' mem

-- the array of aligned records is packed and unpacked, but the dtype differs
example : ¬ Spec.GapFree Toy.alignedRecords.dtype := by
  simp [Toy.alignedRecords, Toy.aligned, Spec.GapFree, Spec.GapFreeFrom, prodShape, DType.size]

example : (do
    let out ← Toy.packArray Toy.alignedRecords (.int 16) 200
    let u ← (unpackNdarrayFromBytes Toy.jsonEnv Toy.numpy out 1000 (fun _ => 0)).1
    return (match u.dtype with | .record fs _ => fs.labels | _ => [])).toOption = some [pyStr "a", pyStr "f1", pyStr "b"] := by
  decide +kernel

/-! ### C30, unpacking -/

/-- C30, unpacking: unpacking what was packed from an array touches no memory outside the new array's buffer, and fills that
buffer with the bytes that were packed. -/
theorem C30_unpack_fills (E : Env Json) (L : E.Laws) (lib : NumpyLib) (a : NdArray) (alloc : Int) (cs : ChunkSizeArg)
    (blosc : BloscArgs) (b : BloscpackArgs) (m : MetadataArgs) (out : Bytes)
    (h : packNdarrayToBytes E lib a alloc cs blosc b m = .ok out) (alloc' : Int) (mem : Int → UInt8) :
    let size := prodShape a.shape * a.itemsize
    let r := unpackNdarrayFromBytes E lib out alloc' mem
    (∀ x, ¬ (alloc' ≤ x ∧ x < alloc' + size) → r.2 x = mem x) ∧
    (Spec.GapFree a.dtype → Spec.Known lib a.dtype →
      ∃ u, r.1 = .ok u ∧ u.ptr = alloc' ∧ u.mem = r.2 ∧ prodShape u.shape * u.itemsize = size ∧
        readMem u.mem alloc' size = readMem (sourceArray a alloc).mem (sourceArray a alloc).ptr size) := by
  intro size r
  have hlen : (sourceBuffer a alloc).length = size := by simp [sourceBuffer, size]
  obtain ⟨md, hmd, hu⟩ := packNdarray_ok L h
  constructor
  · intro x hx
    rcases unpackNdarray_cases E lib out alloc' mem with ⟨e, -, h1⟩ | ⟨md', ⟨e, -, h1⟩ | ⟨y, hy, h1⟩, -⟩
    · simp only [r, h1]
    · simp only [r, h1]
    · simp only [r, h1, unpackFP_of_ok hu]
      exact writeMem_outside _ _ _ _ (by rw [hlen]; exact hx)
  · intro hg hk
    have hr := unpackNdarray_meta E lib a hg hk md hmd out _ hu alloc' mem
    simp only [r, hr]
    refine ⟨_, rfl, rfl, rfl, rfl, ?_⟩
    simp only
    rw [← hlen, readMem_writeMem, hlen]
    rfl

/-! ### C29 -/

mutual
theorem hasObject_iff (d : DType) : d.hasObject = true ↔ Spec.Mentions (pyStr "|O") d := by
  match d with
  | .scalar s n =>
    rw [DType.hasObject, beq_iff_eq]
    constructor
    · rintro rfl; exact .here n
    · intro h; cases h; rfl
  | .record fs n =>
    rw [DType.hasObject, hasObjectFields_iff fs]
    constructor
    · rintro ⟨t, h1, h2⟩; exact .field t fs n h1 h2
    · intro h; cases h with | field t _ _ h1 h2 => exact ⟨t, h1, h2⟩
theorem hasObjectFields_iff (fs : Fields) : fs.hasObject = true ↔ ∃ t ∈ Spec.fieldTypes fs, Spec.Mentions (pyStr "|O") t := by
  match fs with
  | .nil => simp [Fields.hasObject, Spec.fieldTypes]
  | .cons _ _ _ _ t rest =>
    rw [Fields.hasObject, Bool.or_eq_true, hasObject_iff t, hasObjectFields_iff rest]
    simp [Spec.fieldTypes]
end

/-- C29: an array whose type contains objects, at whatever depth, is rejected as such. -/
theorem C29_objects_rejected (E : Env Json) (L : E.Laws) (lib : NumpyLib) (a : NdArray) (alloc : Int) (cs : ChunkSizeArg) (blosc : BloscArgs)
    (b : BloscpackArgs) (m : MetadataArgs) (h : Spec.Mentions (pyStr "|O") a.dtype) :
    packNdarrayToBytes E lib a alloc cs blosc b m = .error .objectNumpyArrayRejection := by
  rcases packNdarray_cases E L lib a alloc cs blosc b m with ⟨-, h1⟩ | ⟨h1, -⟩
  · exact h1
  · rw [(hasObject_iff _).2 h] at h1; cases h1

theorem requested_unique {cs : ChunkSizeArg} {v w : Int} (h1 : Spec.RequestedSize cs v) (h2 : Spec.RequestedSize cs w) : v = w := by
  rcases h1 with rfl | ⟨s, rfl, hs⟩
  · rcases h2 with r1 | ⟨s, r1, -⟩
    · cases r1; rfl
    · cases r1
  · rcases h2 with r1 | ⟨s', r1, hs'⟩
    · cases r1
    · cases r1; rw [hs] at hs'; cases hs'; rfl

theorem effective_chunk {k item : Nat} {cs : ChunkSizeArg} {n c l : Int} (hc : calculateNchunks ((k * item : Nat) : Int) cs = .ok (n, c, l)) :
    (item : Int) ∣ c ↔ ∀ v, Spec.RequestedSize cs v → 1 ≤ v → v < (k * item : Nat) → (item : Int) ∣ v := by
  obtain ⟨h1, h2, h3, h4, h5, h6, h7⟩ := C02_chunking_covers _ _ _ _ _ hc
  have hds : (item : Int) ∣ (k * item : Nat) := by rw [Int.natCast_mul]; exact Int.dvd_mul_left _ _
  generalize k * item = S at *
  by_cases hz : (S : Int) = 0
  · have hc0 : c = 0 := (h6 hz).2.1
    subst hc0
    exact ⟨fun _ v _ h8 h9 => by omega, fun _ => Int.dvd_zero _⟩
  · obtain ⟨h8, v, hv, hcv, hvc, hk⟩ := h7 hz
    constructor
    · intro hd w hw h9 hlt
      rw [requested_unique hw hv] at hlt ⊢
      rw [← hvc (by omega)]; exact hd
    · intro hall
      by_cases hlt : v < S
      · rw [hvc (by omega)]; exact hall v hv (by omega) hlt
      · have := hk 1 (by omega)
        have h9 : n - 1 = 0 := by omega
        rw [h9] at h1
        have : c = S := by omega
        rw [this]; exact hds

theorem packNdarray_header_error {E : Env Json} {lib : NumpyLib} {a : NdArray} {alloc : Int} {cs : ChunkSizeArg} {blosc : BloscArgs}
    {b : BloscpackArgs} {m : MetadataArgs} {md : Json} {n c l : Int} {e : Err} (ho : a.dtype.hasObject = false) (hmd : ndarrayMeta lib a = .ok md)
    (hc : calculateNchunks ((prodShape a.shape * a.itemsize : Nat) : Int) cs = .ok (n, c, l))
    (hh : packHeader n c l (some md) { blosc with typesize := a.itemsize } b = .error e) :
    packNdarrayToBytes E lib a alloc cs blosc b m = .error e := by
  unfold packNdarrayToBytes packNdarray
  rw [Proc.bind_of_ok (a := ()) (s' := { fp := { data := [] } }) (by simp [Proc.raiseIf, Proc.pure, ho]), hmd,
    Proc.bind_of_ok (Proc.ofExcept_apply _ _), hc, Proc.bind_of_ok (Proc.ofExcept_apply _ _)]
  simp only
  unfold pack
  rw [hh]
  rw [Proc.bind_of_error (Proc.bind_of_error (Proc.ofExcept_apply _ _))]

/-- C29: for an array without objects, with a description and otherwise valid settings (whatever `typesize` says), packing succeeds
exactly if the items have between 1 and 255 bytes, and are not split by a chunk size smaller than the array. -/
theorem C29_accepted_iff (E : Env Json) (L : E.Laws) (lib : NumpyLib) (a : NdArray) (alloc : Int) (cs : ChunkSizeArg) (blosc : BloscArgs)
    (b : BloscpackArgs) (m : MetadataArgs) (md : Json) (ho : ¬ Spec.Mentions (pyStr "|O") a.dtype) (hmd : ndarrayMeta lib a = .ok md)
    (hm : Spec.GoodMetadata E (some md) m)
    (hg : Spec.GoodSettings E (prodShape a.shape * a.itemsize) cs { blosc with typesize := 1 } b) :
    (∃ out, packNdarrayToBytes E lib a alloc cs blosc b m = .ok out) ↔
      1 ≤ a.itemsize ∧ a.itemsize ≤ 255 ∧
      ∀ v, Spec.RequestedSize cs v → 1 ≤ v → v < (prodShape a.shape * a.itemsize : Nat) → (a.itemsize : Int) ∣ v := by
  have hlen : (sourceBuffer a alloc).length = prodShape a.shape * a.itemsize := by simp [sourceBuffer]
  rcases packNdarray_cases E L lib a alloc cs blosc b m with ⟨h1, -⟩ | ⟨-, ⟨e, h1, -⟩ | ⟨md', hmd', hh⟩⟩
  · exact absurd ((hasObject_iff _).1 h1) ho
  · rw [hmd] at h1; cases h1
  rw [hmd] at hmd'
  cases hmd'
  obtain ⟨m0, fp0, hp0⟩ := packBytes_total L (sourceBuffer a alloc) cs (some md) { blosc with typesize := 1 } b m (by rw [hlen]; exact hg) hm
  obtain ⟨-, F0, n0, c0, l0, -, -, -, -, -, -, -, hc0, -⟩ := packBytes_ok L hp0
  rw [hlen] at hc0
  rcases hh with ⟨e, h1, -⟩ | ⟨n, c, l, hc, hh⟩
  · rw [hc0] at h1; cases h1
  have heff := effective_chunk hc
  constructor
  · rintro ⟨out, hout⟩
    rcases hh with ⟨e, -, h1, -⟩ | ⟨ps, hps, h1⟩
    · exact absurd hout (h1 out)
    · rw [h1] at hout
      obtain ⟨h0, hd, -⟩ := numpyPairs_ok hps
      obtain ⟨F, n', c', l', m', -, -, -, -, -, -, -, hF, -⟩ := packBytesToBytes_ok L hout
      obtain ⟨k1, -, -, -, -, k6, -⟩ := packHeader_ok hF
      have := k1.2.2.1.2
      rw [k6] at this
      have : (a.itemsize : Int) ≤ 255 := this
      exact ⟨Nat.pos_of_ne_zero h0, by omega, heff.1 hd⟩
  · rintro ⟨h1, h2, h3⟩
    have hgood : Spec.GoodSettings E (sourceBuffer a alloc).length cs { blosc with typesize := (a.itemsize : Int) } b := by
      rw [hlen]
      exact ⟨hg.small, hg.chunk, ⟨by show (1 : Int) ≤ a.itemsize; omega, by show (a.itemsize : Int) ≤ 255; omega, hg.blosc.2.2⟩, hg.checksum, hg.apps⟩
    obtain ⟨out, hout, -⟩ := C01_total E L (sourceBuffer a alloc) cs (some md) { blosc with typesize := a.itemsize } b m hgood hm
    rcases hh with ⟨e, hps, -⟩ | ⟨ps, hps, h4⟩
    · have hd := heff.2 h3
      unfold numpyPairs at hps
      rw [if_neg (by omega), if_neg (by simp [Int.emod_eq_zero_of_dvd hd])] at hps
      cases hps
    · exact ⟨out, by rw [h4, hout]⟩

/-- C29: the exceptions raised for arrays without objects. -/
theorem C29_exceptions (E : Env Json) (L : E.Laws) (lib : NumpyLib) (a : NdArray) (alloc : Int) (cs : ChunkSizeArg) (blosc : BloscArgs)
    (b : BloscpackArgs) (m : MetadataArgs) (md : Json) (ho : ¬ Spec.Mentions (pyStr "|O") a.dtype) (hmd : ndarrayMeta lib a = .ok md) :
    -- a chunk size out of range
    (0 < prodShape a.shape * a.itemsize → ∀ v, Spec.RequestedSize cs v → ¬ (1 ≤ v ∧ v ≤ 2 ^ 31 - 17) →
      packNdarrayToBytes E lib a alloc cs blosc b m = .error .valueError) ∧
    (Spec.GoodMetadata E (some md) m → Spec.GoodSettings E (prodShape a.shape * a.itemsize) cs { blosc with typesize := 1 } b →
      -- too large items
      (255 < a.itemsize → packNdarrayToBytes E lib a alloc cs blosc b m = .error .valueError) ∧
      -- a chunk size splitting items
      (1 ≤ a.itemsize → a.itemsize ≤ 255 → ∀ v, Spec.RequestedSize cs v → 1 ≤ v → v < (prodShape a.shape * a.itemsize : Nat) → ¬ (a.itemsize : Int) ∣ v →
        packNdarrayToBytes E lib a alloc cs blosc b m = .error .chunkSizeTypeSizeMismatch)) := by
  have hlen : (sourceBuffer a alloc).length = prodShape a.shape * a.itemsize := by simp [sourceBuffer]
  have ho' : a.dtype.hasObject = false := by
    cases h : a.dtype.hasObject with
    | false => rfl
    | true => exact absurd ((hasObject_iff _).1 h) ho
  have hB : BLOSC_MAX_BUFFERSIZE = 2 ^ 31 - 17 := by decide
  rcases packNdarray_cases E L lib a alloc cs blosc b m with ⟨h1, -⟩ | ⟨-, ⟨e, h1, -⟩ | ⟨md', hmd', hh⟩⟩
  · rw [ho'] at h1; cases h1
  · rw [hmd] at h1; cases h1
  rw [hmd] at hmd'
  cases hmd'
  refine ⟨fun hpos v hv hbad => ?_, fun hm hg => ?_⟩
  · obtain ⟨-, -, -, -, c5⟩ := C03_chunking_rejected ((prodShape a.shape * a.itemsize : Nat) : Int) cs
    have := (c5 (by omega) v hv).1 (by rw [hB]; exact hbad)
    rcases hh with ⟨e, h1, h2⟩ | ⟨n, c, l, hc, -⟩
    · rw [this] at h1; cases h1; exact h2
    · rw [this] at hc; cases hc
  obtain ⟨m0, fp0, hp0⟩ := packBytes_total L (sourceBuffer a alloc) cs (some md) { blosc with typesize := 1 } b m (by rw [hlen]; exact hg) hm
  obtain ⟨-, F0, n0, c0, l0, -, -, -, -, -, -, -, hc0, hF, -⟩ := packBytes_ok L hp0
  rw [hlen] at hc0
  obtain ⟨-, -, -, -, -, -, -, -, -, k10⟩ := packHeader_ok hF
  refine ⟨fun hbig => ?_, fun h1 h2 v hv hv1 hlt hnd => ?_⟩
  · refine packNdarray_header_error ho' hmd hc0 ?_
    unfold packHeader
    rw [k10, Except.ok_bind', BloscpackHeader.new, BloscpackHeader.check]
    have q1 : checkRange (.int FORMAT_VERSION) 0 MAX_FORMAT_VERSION = .ok () := by decide
    have q2 : checkValidChecksum b.checksum = .ok () := by
      unfold checkValidChecksum
      rw [if_pos]
      exact hg.checksum
    have q3 : checkRange (.int (a.itemsize : Int)) 0 BLOSC_MAX_TYPESIZE = .error .valueError := by
      have : BLOSC_MAX_TYPESIZE = 255 := by decide
      simp only [checkRange]
      rw [if_neg (by omega)]
    simp only [q1, q2, q3, Except.ok_bind']
    rfl
  · have hgood : Spec.GoodSettings E (sourceBuffer a alloc).length cs { blosc with typesize := (a.itemsize : Int) } b := by
      rw [hlen]
      exact ⟨hg.small, hg.chunk, ⟨by show (1 : Int) ≤ a.itemsize; omega, by show (a.itemsize : Int) ≤ 255; omega, hg.blosc.2.2⟩, hg.checksum, hg.apps⟩
    obtain ⟨out, hout, -⟩ := C01_total E L (sourceBuffer a alloc) cs (some md) { blosc with typesize := a.itemsize } b m hgood hm
    rcases hh with ⟨e, h1, -⟩ | ⟨n, c, l, hc, hh⟩
    · rw [hc0] at h1; cases h1
    have hnc : ¬ (a.itemsize : Int) ∣ c := fun hd => hnd ((effective_chunk hc).1 hd v hv hv1 hlt)
    rcases hh with ⟨e, hps, -, h4⟩ | ⟨ps, hps, -⟩
    · rw [h4 ⟨out, hout⟩]
      unfold numpyPairs at hps
      rw [if_neg (by omega), if_pos (fun h => hnc (Int.dvd_of_emod_eq_zero h))] at hps
      cases hps; rfl
    · exact absurd (numpyPairs_ok hps).2.1 hnc

theorem Toy.goodMetadata (j : Json) (h : j.storable = true) (hl : 10 * (dumpsJson j).length ≤ 2 ^ 32 - 1) :
    Spec.GoodMetadata Toy.jsonEnv (some j) {} :=
  .inr ⟨rfl, by decide, by decide, by decide, by decide, dumpsJson j, 10 * (dumpsJson j).length, if_pos h, .inr ⟨_, rfl, rfl⟩, by omega, by omega⟩

-- the hypotheses hold of the examples: settings, description and metadata size
example : Spec.GoodSettings Toy.jsonEnv (prodShape Toy.view.shape * Toy.view.itemsize) (.int 8) { typesize := 1 } {} ∧
    ∃ md, ndarrayMeta Toy.numpy Toy.view = .ok md ∧ Spec.GoodMetadata Toy.jsonEnv (some md) {} := by
  refine ⟨⟨by decide, fun _ => ⟨8, .inl rfl, by decide, by decide⟩, by decide, by decide,
    fun _ n h1 h2 => ⟨10 * n, .inr ⟨_, rfl, rfl⟩, by omega, by omega⟩⟩, _, rfl, Toy.goodMetadata _ ?_ ?_⟩
  · decide +kernel
  · decide +kernel

example : (Toy.packArray Toy.view (.int 6) 200).toOption = none ∧ (Toy.packArray { Toy.view with dtype := .scalar (pyStr "|S300") 300 } (.int 1200) 500).toOption = none := by
  decide +kernel

/-! ### C56 -/

/-- C56, what does hold: unpacking, of any bytes and whatever its outcome, writes at most the data `unpack_bytes` would write to
a file, from the array's address on; no other memory changes. Missing for the full property: that this is within the array. -/
theorem C56_written_partial (E : Env Json) (lib : NumpyLib) (input : FP) (alloc : Int) (mem : Int → UInt8) :
    ∀ x, ¬ (alloc ≤ x ∧ x < alloc + (unpackFP E input).2.length) → (unpackNdarray E lib input alloc mem).2 x = mem x := by
  intro x hx
  rcases unpackNdarray_fp E lib input alloc mem with ⟨e, -, h1⟩ | ⟨md', ⟨e, -, h1⟩ | ⟨y, hy, h1⟩, -⟩
  · simp only [h1]
  · simp only [h1]
  · simp only [h1]
    exact writeMem_outside _ _ _ _ hx

/-- C56 is violated: packed data together with the description of an array is accepted whatever the length of the data. All of
the data is written to memory, also the part behind the end of the array; if there is less data than the array takes, the rest
of the returned array is what the memory held before. -/
theorem C56_violated (E : Env Json) (L : E.Laws) (lib : NumpyLib) (a : NdArray) (hg : Spec.GapFree a.dtype)
    (hk : Spec.Known lib a.dtype) (md : Json) (hmd : ndarrayMeta lib a = .ok md) (data : Bytes) (cs : ChunkSizeArg) (blosc : BloscArgs)
    (b : BloscpackArgs) (m : MetadataArgs) (out : Bytes) (h : packBytesToBytes E data cs (some md) blosc b m = .ok out)
    (alloc : Int) (mem : Int → UInt8) :
    ∃ u, (unpackNdarrayFromBytes E lib out alloc mem).1 = .ok u ∧ u.ptr = alloc ∧ u.dtype = a.dtype ∧ u.shape = a.shape ∧
      u.mem = (unpackNdarrayFromBytes E lib out alloc mem).2 ∧
      (∀ k : Nat, k < data.length → some (u.mem (alloc + k)) = data[k]?) ∧
      (∀ k : Nat, data.length ≤ k → u.mem (alloc + k) = mem (alloc + k)) := by
  have hu : unpackFrom E out = (.ok (some md), data) := packed_unpackFrom L h
  rw [unpackNdarray_meta E lib a hg hk md hmd out _ hu]
  refine ⟨_, rfl, rfl, rfl, rfl, rfl, fun k hk => writeMem_inside _ _ _ _ hk, fun k hk => ?_⟩
  exact writeMem_outside _ _ _ _ (by omega)

end Bloscpack
