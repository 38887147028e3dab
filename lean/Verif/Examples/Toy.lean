import Verif.Model.Env
import Verif.Lemmas.Prim
/-
A concrete environment satisfying `Env.Laws`, used to show that the hypotheses of the theorems can be met. It is not
a model of the real libraries: blosc stores, zlib is a run-length encoding, metadata objects are natural numbers.
-/
namespace Bloscpack.Toy

/-- run-length encoding as (count, byte) pairs -/
def rle : Bytes → Bytes
  | [] => []
  | b :: bs =>
    match rle bs with
    | c :: x :: rest => if x = b ∧ c < 255 then (c + 1) :: x :: rest else 1 :: b :: c :: x :: rest
    | _ => [1, b]

def unrle : Bytes → Bytes
  | c :: x :: rest => List.replicate c.toNat x ++ unrle rest
  | _ => []

theorem rle_shape (d : Bytes) : d = [] ∧ rle d = [] ∨ ∃ c x rest, rle d = c :: x :: rest := by
  cases d with
  | nil => exact .inl ⟨rfl, rfl⟩
  | cons b bs =>
    right
    unfold rle
    split
    · split <;> exact ⟨_, _, _, rfl⟩
    · exact ⟨_, _, _, rfl⟩

theorem unrle_rle (d : Bytes) : unrle (rle d) = d := by
  induction d with
  | nil => rfl
  | cons b bs ih =>
    rcases rle_shape bs with ⟨rfl, h⟩ | ⟨c, x, rest, h⟩
    · rfl
    · unfold rle
      rw [h] at ih ⊢
      simp only
      split
      · rename_i hc
        have h1 : (c + 1).toNat = c.toNat + 1 := by
          have := UInt8.lt_iff_toNat_lt.1 hc.2
          rw [UInt8.toNat_add]
          have h255 : (255 : UInt8).toNat = 255 := rfl
          have : (1 : UInt8).toNat = 1 := rfl
          omega
        unfold unrle at ih ⊢
        rw [h1, List.replicate_succ, List.cons_append, ih, hc.1]
      · show List.replicate (1 : UInt8).toNat b ++ unrle (c :: x :: rest) = _
        rw [ih]; rfl

/-- a stored blosc buffer: 16 byte header, then the data -/
def compress (d : Bytes) (a : BloscArgs) : Except Err Bytes :=
  if (1 ≤ a.typesize ∧ a.typesize ≤ 255 ∧ 0 ≤ a.clevel ∧ a.clevel ≤ 9 ∧ 0 ≤ a.shuffle ∧ a.shuffle ≤ 2 ∧
      a.cname ∈ ["blosclz", "lz4"]) ∧ (d.length : Int) ≤ BLOSC_MAX_BUFFERSIZE then
    .ok ([2, 1, 2, UInt8.ofNat a.typesize.toNat] ++ leEncode 4 d.length ++ leEncode 4 d.length ++ leEncode 4 (d.length + 16) ++ d)
  else .error .valueError

def decompress (c : Bytes) : Except Err Bytes :=
  if 16 ≤ c.length ∧ leDecode (slice c 12 16) = c.length then .ok (c.drop 16) else .error .bloscError

def hashlib (name : String) (d : Bytes) : Bytes :=
  List.replicate ((hashlibSize name).getD 0) (d.foldl (fun s b => 3 * s + b + 1) 0)

/-- `[`, then as many `1`s -/
def dumps : Option Nat → Except Err (List Char)
  | none => .ok ['n', 'u', 'l', 'l']
  | some n => .ok ('[' :: List.replicate n '1')

def loads (b : Bytes) : Except Err (Option Nat) :=
  match b with
  | 91 :: ones => .ok (some ones.length)
  | [110, 117, 108, 108] => .ok none
  | _ => .error .jsonDecodeError

def env : Env Nat where
  compress := compress
  decompress := decompress
  cnames := ["blosclz", "lz4"]
  hashlib := hashlib
  zcompress := fun d l => if 0 ≤ l ∧ l ≤ 9 then .ok (rle d) else .error .zlibError
  zdecompress := fun c => .ok (unrle c)
  dumps := dumps
  loads := loads
  metaEq := fun a b => a == b

theorem compress_ok {d a c} (h : compress d a = .ok c) :
    a.Valid env ∧ (d.length : Int) ≤ BLOSC_MAX_BUFFERSIZE ∧ c.length = d.length + 16 ∧ c.drop 16 = d ∧
      leDecode (slice c 12 16) = d.length + 16 := by
  unfold compress at h
  split at h
  · rename_i hv
    cases h
    refine ⟨hv.1, hv.2, by simp; omega, ?_, ?_⟩
    · rw [List.drop_append, List.drop_of_length_le (by simp)]
      simp
    · rw [slice_append_left _ _ _ _ (by simp), slice_append_right _ _ _ _ (by simp)]
      rw [show 12 - ([2, 1, 2, UInt8.ofNat a.typesize.toNat] ++ leEncode 4 d.length ++ leEncode 4 d.length).length = 0 by simp,
        show 16 - ([2, 1, 2, UInt8.ofNat a.typesize.toNat] ++ leEncode 4 d.length ++ leEncode 4 d.length).length = 4 by simp,
        slice_all _ _ (by simp), leDecode_leEncode]
      have h2 := hv.2
      have hB : BLOSC_MAX_BUFFERSIZE = 2147483631 := by decide
      rw [hB] at h2
      omega
  · cases h

theorem dumps_utf8 (n : Nat) : encodeUtf8 ('[' :: List.replicate n '1') = 91 :: List.replicate n 49 := by
  have h1 : String.utf8EncodeChar '[' = [91] := by decide
  have h2 : String.utf8EncodeChar '1' = [49] := by decide
  unfold encodeUtf8
  rw [List.flatMap_cons, h1]
  have : (List.replicate n '1').flatMap String.utf8EncodeChar = List.replicate n 49 := by
    induction n with
    | zero => rfl
    | succ n ih => rw [List.replicate_succ, List.flatMap_cons, h2, ih]; rfl
  rw [this]; rfl

theorem laws : env.Laws where
  compress_total := by
    intro d a ha hd
    exact ⟨_, if_pos ⟨ha, hd⟩⟩
  compress_reject := by
    intro d a c h
    have := compress_ok h
    exact ⟨this.1, this.2.1⟩
  compress_header := by
    intro d a c h
    have := compress_ok h
    exact ⟨by omega, by omega, by omega⟩
  decompress_compress := by
    intro d a c h
    obtain ⟨-, -, h1, h2, h3⟩ := compress_ok h
    show decompress c = _
    rw [decompress, if_pos ⟨by omega, by omega⟩, h2]
  decompress_length := by
    intro c d h
    replace h : decompress c = .ok d := h
    unfold decompress at h
    split at h
    · assumption
    · cases h
  zdecompress_zcompress := by
    intro d l c h
    simp only [env] at h ⊢
    split at h
    · cases h; rw [unrle_rle]
    · cases h
  zcompress_total := fun d l h0 h1 => ⟨_, if_pos ⟨h0, h1⟩⟩
  hashlib_length := by
    intro name n d h
    simp [env, hashlib, h]
  dumps_ascii := by
    intro m s h c hc
    cases m with
    | none =>
      cases h
      simp at hc
      rcases hc with rfl | rfl | rfl <;> decide
    | some n =>
      cases h
      simp at hc
      rcases hc with rfl | ⟨-, rfl⟩ <;> decide
  loads_dumps := by
    intro m s h
    cases m with
    | none => cases h; decide
    | some n => 
      cases h
      rw [dumps_utf8]
      show loads (91 :: List.replicate n 49) = .ok (some n)
      simp [loads]

end Bloscpack.Toy
