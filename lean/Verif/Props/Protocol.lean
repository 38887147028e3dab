import Verif.Spec.Protocol
import Verif.Lemmas.PackFile
import Verif.Examples.Toy
/-
C113: how sources and sinks are used.
-/
namespace Bloscpack
variable {μ σ τ : Type}

namespace Spec

theorem raised_bind {α β : Type} (p : Proc σ α) (f : α → Proc σ β) (s : σ) : raised ((p >>= f) s) =
    match p s with
    | (.ok x, s') => raised (f x s')
    | (.error e, s') => (some e, s') := by
  rw [Proc.bind_apply]
  rcases p s with ⟨_ | _, _⟩ <;> rfl

theorem perform_cons (sink : CompressedSink μ σ) (c : Call μ) (cs : List (Call μ)) (stop : Option Err) (s : σ) : perform sink (c :: cs) stop s =
    match c.perform sink s with
    | (none, s') => perform sink cs stop s'
    | (some e, s') => (some e, s') := rfl

/-- one call, and what follows -/
theorem raised_call {α β : Type} {sink : CompressedSink μ σ} (c : Call μ) (p : Proc σ α) (f : α → Proc σ β) (cs : List (Call μ)) (stop : Option Err)
    (hc : ∀ s, c.perform sink s = raised (p s)) (hf : ∀ x s, raised (f x s) = perform sink cs stop s) (s : σ) :
    raised ((p >>= f) s) = perform sink (c :: cs) stop s := by
  rw [raised_bind, perform_cons, hc]
  unfold raised
  rcases p s with ⟨_ | x, s'⟩
  · rfl
  · exact hf x s'

theorem perform_append (sink : CompressedSink μ σ) (cs ds : List (Call μ)) (stop : Option Err) (s : σ) : perform sink (cs ++ ds) stop s =
    match perform sink cs none s with
    | (none, s') => perform sink ds stop s'
    | (some e, s') => (some e, s') := by
  induction cs generalizing s with
  | nil => rfl
  | cons c cs ih =>
    rw [List.cons_append, perform_cons, perform_cons]
    rcases c.perform sink s with ⟨_ | e, s'⟩
    · exact ih s'
    · rfl

theorem perform_stop (sink : CompressedSink μ σ) (cs : List (Call μ)) (e : Err) (s : σ) : perform sink cs (some e) s =
    match perform sink cs none s with
    | (none, s') => (some e, s')
    | (some x, s') => (some x, s') := by
  have := perform_append sink cs [] (some e) s
  rw [List.append_nil] at this
  exact this

end Spec

/-- the loop of `pack` -/
theorem packLoop_calls (E : Env μ) (sink : CompressedSink μ σ) (a : BloscArgs) (i : Nat) (items : List Bytes) :
    ∃ compressed stop, (items.take compressed.length).map (E.compress · a) = compressed.map .ok ∧ compressed.length ≤ items.length ∧
      (stop = none ∧ compressed.length = items.length ∨ ∃ e d, stop = some e ∧ items[compressed.length]? = some d ∧ E.compress d a = .error e) ∧
      ∀ s, Spec.raised (packLoop E sink a i items s) = Spec.perform sink (Spec.puts i compressed) stop s := by
  induction items generalizing i with
  | nil => exact ⟨[], none, rfl, Nat.le_refl _, .inl ⟨rfl, rfl⟩, fun s => rfl⟩
  | cons d items ih =>
    cases hc : E.compress d a with
    | error e =>
      refine ⟨[], some e, rfl, Nat.zero_le _, .inr ⟨e, d, rfl, rfl, hc⟩, fun s => ?_⟩
      unfold packLoop
      rw [Spec.raised_bind, Proc.ofExcept_apply, hc]
      rfl
    | ok c =>
      obtain ⟨cs, stop, h1, h2, h3, h4⟩ := ih (i + 1)
      refine ⟨c :: cs, stop, ?_, by simpa using h2, ?_, fun s => ?_⟩
      · simp only [List.length_cons, List.take_succ_cons, List.map_cons, hc, h1]
      · simpa using h3
      · unfold packLoop
        rw [Spec.raised_bind, Proc.ofExcept_apply, hc]
        simp only
        exact Spec.raised_call (.put i c) _ _ _ _ (fun _ => rfl) (fun _ s' => h4 s') s

/-- C113: `pack` with any source, any sink, any settings. If the header cannot be made, no method of the sink is called. Otherwise its methods are
called in this order: `configure`, `write_bloscpack_header`, `write_metadata` if there are metadata, `init_offsets`, `put` for the chunks that
the source has yielded, compressed, in their order and numbered from 0, and `finalize`. When a method raises an exception this exception is
raised, and no other method is called. When compressing a chunk or the source raises an exception, after the calls of `put` for all chunks
before it have returned, it is raised, and `finalize` is not called. -/
theorem C113_pack (E : Env μ) (source : PlainSource) (sink : CompressedSink μ σ) (nchunks chunk_size last_chunk : Int) (metadata : Option μ)
    (a : BloscArgs) (b : BloscpackArgs) (m : MetadataArgs) :
    (∃ e, ∀ s, pack E source sink nchunks chunk_size last_chunk metadata a b m s = (.error e, s)) ∨
    ∃ (h : BloscpackHeader) (compressed : List Bytes) (stop : Option Err),
      (h.nchunks = nchunks ∧ h.chunk_size = chunk_size ∧ h.last_chunk = last_chunk ∧ h.offsets = b.offsets ∧ h.checksum = b.checksum ∧
        h.typesize = a.typesize ∧ h.metadata = metadata.isSome) ∧
      ((source chunk_size last_chunk nchunks).items.take compressed.length).map (E.compress · a) = compressed.map .ok ∧
      compressed.length ≤ (source chunk_size last_chunk nchunks).items.length ∧
      (compressed.length = (source chunk_size last_chunk nchunks).items.length ∧ stop = (source chunk_size last_chunk nchunks).stop ∨
        ∃ e d, (source chunk_size last_chunk nchunks).items[compressed.length]? = some d ∧ E.compress d a = .error e ∧ stop = some e) ∧
      ∀ s, Spec.raised (pack E source sink nchunks chunk_size last_chunk metadata a b m s) =
        Spec.perform sink ([.configure a h, .writeBloscpackHeader] ++ (if metadata.isSome then [.writeMetadata metadata m] else []) ++ [.initOffsets] ++
          Spec.puts 0 compressed ++ (if stop = none then [.finalize] else [])) stop s := by
  cases hh : packHeader nchunks chunk_size last_chunk metadata a b with
  | error e =>
    refine .inl ⟨e, fun s => ?_⟩
    unfold pack
    rw [Proc.bind_of_error (Proc.ofExcept_apply _ _ |>.trans (by rw [hh]))]
  | ok h =>
    right
    obtain ⟨-, -, g3, g4, g5, g6, g7, g8, g9, -⟩ := packHeader_ok hh
    obtain ⟨cs, stop0, h1, h2, h3, h4⟩ := packLoop_calls E sink a 0 (source chunk_size last_chunk nchunks).items
    refine ⟨h, cs, stop0.or (source chunk_size last_chunk nchunks).stop, ⟨g9, g7, g8, g3, g5, g6, g4⟩, h1, h2, ?_, fun s => ?_⟩
    · rcases h3 with ⟨rfl, hl⟩ | ⟨e, d, rfl, hd, he⟩
      · exact .inl ⟨hl, rfl⟩
      · exact .inr ⟨e, d, hd, he, rfl⟩
    · unfold pack
      rw [Spec.raised_bind, Proc.ofExcept_apply, hh]
      simp only
      -- behind the metadata
      have hrest : ∀ (m' : MetadataArgs) (s3 : σ), Spec.raised ((do
          sink.initOffsets
          packLoop E sink a 0 (source chunk_size last_chunk nchunks).items
          match (source chunk_size last_chunk nchunks).stop with
          | some e => Proc.raise e
          | none => do
            sink.finalize
            Proc.pure m' : Proc σ MetadataArgs) s3) =
          Spec.perform sink (.initOffsets :: (Spec.puts 0 cs ++
            (if (stop0.or (source chunk_size last_chunk nchunks).stop) = none then [.finalize] else [])))
            (stop0.or (source chunk_size last_chunk nchunks).stop) s3 := by
        intro m' s3
        refine Spec.raised_call .initOffsets _ _ _ _ (fun _ => rfl) (fun _ s4 => ?_) s3
        rw [Spec.raised_bind, Spec.perform_append]
        have := h4 s4
        rcases h3 with ⟨rfl, -⟩ | ⟨e, d, rfl, -, -⟩
        · rw [← this]
          unfold Spec.raised
          rcases packLoop E sink a 0 (source chunk_size last_chunk nchunks).items s4 with ⟨_ | _, s5⟩
          · rfl
          · simp only
            cases (source chunk_size last_chunk nchunks).stop with
            | some e => rfl
            | none =>
              exact Spec.raised_call .finalize sink.finalize (fun _ => Proc.pure m') [] none (fun _ => rfl) (fun _ _ => rfl) s5
        · rw [Spec.perform_stop] at this
          rcases hq : Spec.perform sink (Spec.puts 0 cs) none s4 with ⟨_ | x, s5⟩
          all_goals
            rw [hq] at this
            simp only at this ⊢
            unfold Spec.raised at this
            rcases hp : packLoop E sink a 0 (source chunk_size last_chunk nchunks).items s4 with ⟨_ | _, s6⟩
            · rw [hp] at this
              simp only [Prod.mk.injEq, Option.some.injEq] at this
              simp only [this.1, this.2]
              try rfl
            · rw [hp] at this
              simp at this
      simp only [List.append_assoc, List.cons_append, List.nil_append]
      refine Spec.raised_call (.configure a h) _ _ _ _ (fun _ => rfl) (fun _ s1 => ?_) s
      refine Spec.raised_call .writeBloscpackHeader _ _ _ _ (fun _ => rfl) (fun _ s2 => ?_) s1
      unfold packMetadata
      cases metadata with
      | none => exact hrest m s2
      | some md => exact Spec.raised_call (.writeMetadata (some md) m) _ _ _ _ (fun _ => rfl) hrest s2

theorem checkDigest_iff (impl : Hash) (x : Bytes × Option Bytes) :
    (Spec.Right impl x ∧ checkDigest impl x.1 x.2 = .ok ()) ∨ (¬ Spec.Right impl x ∧ checkDigest impl x.1 x.2 = .error .checksumMismatch) := by
  unfold Spec.Right checkDigest
  obtain ⟨c, d⟩ := x
  cases d with
  | none => exact .inl ⟨.inl rfl, rfl⟩
  | some d =>
    simp only
    by_cases h : d ≠ [] ∧ d ≠ impl.function c
    · right
      rw [if_pos h]
      simp [h.1, h.2]
    · left
      rw [if_neg h]
      refine ⟨?_, rfl⟩
      by_cases h1 : d = []
      · exact .inr (.inl (by rw [h1]))
      · exact .inr (.inr (by rw [Classical.not_not.1 fun h2 => h ⟨h1, h2⟩]))

theorem unpackLoop_calls (source : CompressedSource σ) (put : Bytes → Proc τ Unit) (n i : Nat) (s : σ) (t : τ) :
    ∃ got s', Spec.Yielded source i s got s' ∧ Spec.Unpacked source put t n i got s' (unpackLoop source put n i (s, t)) := by
  induction n generalizing i s t with
  | zero => exact ⟨[], s, .nothing i s, .done t rfl (by simp) rfl⟩
  | succ n ih =>
    unfold unpackLoop
    rcases hx : source.next i s with ⟨e | x, s1⟩
    · rw [Proc.bind_of_error (show Proc.onFst (source.next i) (s, t) = (.error e, (s1, t)) by unfold Proc.onFst; rw [hx])]
      exact ⟨[], s, .nothing i s, .source e s1 t (Nat.succ_pos n) hx (by simp) rfl⟩
    · rw [Proc.bind_of_ok (show Proc.onFst (source.next i) (s, t) = (.ok x, (s1, t)) by unfold Proc.onFst; rw [hx])]
      rcases checkDigest_iff source.checksumImpl x with ⟨hr, hd⟩ | ⟨hr, hd⟩
      · rw [Proc.bind_of_ok (Proc.ofExcept_apply _ _ |>.trans (by rw [hd]))]
        rcases hp : put x.1 t with ⟨e | u, t1⟩
        · rw [Proc.bind_of_error (show Proc.onSnd (put x.1) (s1, t) = (.error e, (s1, t1)) by unfold Proc.onSnd; rw [hp])]
          exact ⟨[x], s1, .next i s s1 s1 x [] hx (.nothing _ _), .sink [] x e t t1 (Nat.succ_le_succ (Nat.zero_le n)) rfl (by simpa using hr) rfl hp⟩
        · rw [Proc.bind_of_ok (show Proc.onSnd (put x.1) (s1, t) = (.ok u, (s1, t1)) by unfold Proc.onSnd; rw [hp])]
          have hput : ∀ l r, Spec.putAll put l t1 = r → Spec.putAll put (x.1 :: l) t = r := by
            intro l r h
            unfold Spec.putAll
            rw [hp]
            exact h
          obtain ⟨got, s', h1, h2⟩ := ih (i + 1) s1 t1
          refine ⟨x :: got, s', .next i s s1 s' x got hx h1, ?_⟩
          generalize unpackLoop source put n (i + 1) (s1, t1) = r at h2
          cases h2 with
          | done t' hn hr' hp' => exact .done t' (by simp [hn]) (by simpa using ⟨hr, by simpa using hr'⟩) (hput _ _ hp')
          | source e s'' t' hn hs hr' hp' =>
            refine .source e s'' t' (by simpa using hn) ?_ (by simpa using ⟨hr, by simpa using hr'⟩) (hput _ _ hp')
            rw [List.length_cons, ← hs]; congr 1; omega
          | digest init y t' hn hg hy hr' hp' =>
            exact .digest (x :: init) y t' (by simpa using hn) (by rw [hg]; rfl) hy (by simpa using ⟨hr, by simpa using hr'⟩) (hput _ _ hp')
          | sink init y e t₁ t' hn hg hr' hp' hy =>
            exact .sink (x :: init) y e t₁ t' (by simpa using hn) (by rw [hg]; rfl) (by simpa using ⟨hr, by simpa using hr'⟩) (hput _ _ hp') hy
      · rw [Proc.bind_of_error (Proc.ofExcept_apply _ _ |>.trans (by rw [hd]))]
        exact ⟨[x], s1, .next i s s1 s1 x [] hx (.nothing _ _), .digest [] x t (Nat.succ_le_succ (Nat.zero_le n)) rfl hr (by simp) rfl⟩

/-- C113: `unpack` with any source and any sink. The sink is given the chunks that the source yields, in their order, each of them after its digest
has been compared. The first exception, from the source, from the sink or because of a digest, ends it and is raised; all the chunks before
have been given to the sink, and a chunk with a wrong digest has not. -/
theorem C113_unpack (source : CompressedSource σ) (put : Bytes → Proc τ Unit) (s : σ) (t : τ) :
    ∃ got s', Spec.Yielded source 0 s got s' ∧ Spec.Unpacked source put t source.nchunks.toNat 0 got s' (unpack source put (s, t)) :=
  unpackLoop_calls source put _ 0 s t

/-! ### cases -/

/-- a sink that writes down which of its methods were called, with the numbers of the chunks, and raises `IndexError` for the third chunk -/
def scribe : CompressedSink Nat (List (Nat × Nat)) where
  configure _ h s := (.ok (), s ++ [(0, h.nchunks.toNat)])
  writeBloscpackHeader s := (.ok (), s ++ [(1, 0)])
  writeMetadata _ m s := (.ok m, s ++ [(2, 0)])
  initOffsets s := (.ok (), s ++ [(3, 0)])
  put i _ s := if i = 2 then (.error .indexError, s) else (.ok (), s ++ [(4, i)])
  finalize s := (.ok (), s ++ [(5, 0)])

example : (pack Toy.env (plainFPSource { data := [1, 2, 3] }) scribe 2 2 1 (some 7) {} {} {} []).2 =
    [(0, 2), (1, 0), (2, 0), (3, 0), (4, 0), (4, 1), (5, 0)] := by decide +kernel
example : (pack Toy.env (plainFPSource { data := [1, 2, 3, 4, 5] }) scribe 3 2 1 none {} {} {} []).2 =
    [(0, 3), (1, 0), (3, 0), (4, 0), (4, 1)] := by decide +kernel
-- a source that ends with an exception
example : (pack Toy.env (fun _ _ _ => ⟨[[1], [2]], some .osError⟩) scribe 3 2 1 none {} {} {} []).2 =
    [(0, 3), (1, 0), (3, 0), (4, 0), (4, 1)] := by decide +kernel

/-- a source of three chunks, the second of them with a wrong digest if it is asked for -/
def threeChunks (wrong : Bool) : CompressedSource Nat where
  nchunks := 3
  checksumImpl := ⟨"sum", 1, fun d => [d.sum]⟩
  next i s := (.ok ([1, UInt8.ofNat i], some [if wrong = true ∧ i = 1 then 9 else 1 + UInt8.ofNat i]), s + 1)

example : (unpack (threeChunks false) (fun c t => (.ok (), t ++ [c])) (0, [])).2 = (3, [[1, 0], [1, 1], [1, 2]]) := by decide +kernel
example : (unpack (threeChunks true) (fun c t => (.ok (), t ++ [c])) (0, [])).2 = (2, [[1, 0]]) := by decide +kernel

end Bloscpack
