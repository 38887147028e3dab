import Verif.Spec.Updates
import Verif.Lemmas.Refused
import Verif.Props.Rewrite
/-
C100: why appending to an archive and why rewriting its metadata are refused.
-/
namespace Bloscpack
variable {μ : Type}

theorem chunkCount_exists {c : Int} (hc : 1 ≤ c) (n : Nat) : ∃ N, Spec.ChunkCount c n N := by
  refine ⟨(n + c - 1) / c, ?_⟩
  have h1 := Int.mul_ediv_add_emod (n + c - 1) c
  have h2 := Int.emod_nonneg (n + c - 1) (show c ≠ 0 by omega)
  have h3 := Int.emod_lt_of_pos (n + c - 1) (show 0 < c by omega)
  unfold Spec.ChunkCount
  rw [Int.mul_sub]
  omega

theorem chunkCount_unique {c n N M : Int} (hc : 1 ≤ c) (hN : Spec.ChunkCount c n N) (hM : Spec.ChunkCount c n M) : N = M := by
  have key : ∀ x y : Int, Spec.ChunkCount c n x → Spec.ChunkCount c n y → ¬ x < y := by
    rintro x y ⟨-, h1⟩ ⟨h2, -⟩ hlt
    have := Int.mul_le_mul_of_nonneg_left (show x ≤ y - 1 by omega) (show 0 ≤ c by omega)
    omega
  have := key N M hN hM
  have := key M N hM hN
  omega

section
variable {E : Env μ} {F : File μ}

/-- the last chunk of a conforming file starts after the full ones -/
theorem last_piece (hc : F.Conforming E) {init : List (Bytes × Bytes)} {p : Bytes × Bytes} (hch : F.chunks = init ++ [p])
    (hl : (p.2.length : Int) = F.header.last_chunk) (new : Bytes) :
    (F.data ++ new).drop (F.header.chunk_size * (F.header.nchunks - 1)).toNat = p.2 ++ new := by
  have hlen := hc.data_length
  have hd : F.data = (init.map (·.2)).flatten ++ p.2 := by rw [File.data, hch]; simp
  rw [hd, List.length_append] at hlen
  rw [hd, List.append_assoc]
  apply List.drop_left'
  omega

/-- the first of the new chunks of an append is what the last chunk is filled up to -/
theorem Grown.first {p : Bytes × Bytes} {new : Bytes} {a : BloscArgs} {chs : List (Bytes × Bytes)} {q : Bytes × Bytes} {k : Int}
    (hg : Grown E F p new a chs q k) : ∃ z, E.compress ((p.2 ++ new).take F.header.chunk_size.toNat) a = .ok z := by
  rw [← hg.content]
  cases chs with
  | nil =>
    refine ⟨q.1, ?_⟩
    have := hg.last_le
    rw [List.nil_append, List.map_singleton, List.flatten_singleton, List.take_of_length_le (by omega)]
    exact hg.comp q (by simp)
  | cons r rest =>
    refine ⟨r.1, ?_⟩
    have := hg.full r (by simp)
    rw [List.cons_append, List.map_cons, List.flatten_cons, List.take_left' (by omega)]
    exact hg.comp r (by simp)

/-- C100: appending to a conforming file raises exactly the exception of the first reason to refuse it, and returns if there is none. (The
bound keeps the offsets below 2⁶³.) -/
theorem C100_append (L : E.Laws) (hc : F.Conforming E) (hnn : F.NoNull) (new : Bytes) (args : AppendArgs)
    (hsize : (F.bytes E).length + 100 * new.length < 2 ^ 62) (e : Err) :
    (appendFp E { data := new } new.length args { data := F.bytes E }).1 = .error e ↔
      Spec.AppendRefused E F.header F.data new (args.filled F.header) e := by
  unfold Spec.AppendRefused
  cases ho : F.header.offsets with
  | false =>
    rw [append_no_offsets L hc.toPre ho]
    simp only [Except.error.injEq, true_and, Bool.false_eq_true, false_and, or_false]
    exact eq_comm
  | true =>
    simp only [Bool.true_eq_false, false_and, true_and, false_or]
    generalize hrun : appendFp E { data := new } new.length args { data := F.bytes E } = res
    obtain ⟨r, fp⟩ := res
    obtain ⟨init, p, hch, hl, hcases⟩ := append_cases L hc ho hnn hrun
    have hpiece := last_piece hc hch hl new
    rw [hpiece]
    rcases Int.lt_or_le 0 F.header.chunk_size with hcs | hcs
    · obtain ⟨N, hN⟩ := chunkCount_exists (c := F.header.chunk_size) (by omega) (F.data ++ new).length
      constructor
      · intro he
        subst he
        refine .inr (.inr ⟨by omega, N, hN, ?_⟩)
        rcases hcases with ⟨e', h1, -, -, h2⟩ | ⟨chs, q, k', hg, ⟨h1, h2, h3, -⟩ | ⟨h0, -⟩⟩
        · cases h1
          rcases h2.reason hc hch hl (by omega) (by omega) hN with ⟨h3, h4⟩ | ⟨h3, d, h4, h5, rfl⟩
          · exact .inl ⟨by omega, h4⟩
          · exact .inr ⟨by omega, h5⟩
        · cases h2
        · exact absurd (hg.reach L hc hch hsize) h0
      · rintro (⟨h1, -⟩ | ⟨h1, -⟩ | ⟨-, M, hM, hr⟩)
        · omega
        · omega
        obtain rfl := chunkCount_unique (by omega) hN hM
        rcases hcases with ⟨e', h1, -, -, h2⟩ | ⟨chs, q, k', hg, -⟩
        · subst h1
          rcases h2.reason hc hch hl (by omega) (by omega) hN with ⟨h3, h4⟩ | ⟨h3, d, h4, h5, rfl⟩
          · rcases hr with ⟨-, rfl⟩ | ⟨h, -⟩
            · rw [h4]
            · omega
          · rcases hr with ⟨h, -⟩ | ⟨-, h⟩
            · omega
            · rw [h5] at h; cases h; rfl
        · exfalso
          have := hg.count_eq hc hl (by omega) hN
          have := hg.space
          rcases hr with ⟨h, -⟩ | ⟨-, h⟩
          · omega
          · obtain ⟨z, hz⟩ := hg.first
            rw [h] at hz; cases hz
    · obtain ⟨h1, h2, h3⟩ : F.header.nchunks = 1 ∧ F.header.chunk_size = 0 ∧ F.header.last_chunk = 0 := by
        rcases hc.sizes with h | h
        · omega
        · exact h
      have hp : p.2 = [] := List.eq_nil_of_length_eq_zero (by omega)
      by_cases hnew : new = []
      · subst hnew
        constructor
        · rintro rfl
          refine .inr (.inl ⟨h2, rfl, ?_⟩)
          rcases hcases with ⟨e', h4, -, -, h5⟩ | ⟨chs, q, k', hg, ⟨-, h5, -⟩ | ⟨h0, -⟩⟩
          · cases h4
            rcases h5 with ⟨h5, -⟩ | ⟨k, ⟨-, rfl⟩ | ⟨h5, -⟩, ⟨h6, -⟩ | ⟨-, t, h6, h7, -⟩⟩
            · simp [hp, h2] at h5
            · have := hc.ok.2.2.2.2.2.2.1.1; omega
            · simpa [hp] using h7
            · simp [hp, h2] at h5
            · simp [hp, h2] at h5
          · cases h5
          · exact absurd (hg.reach L hc hch hsize) h0
        · rintro (⟨-, h, -⟩ | ⟨-, -, h⟩ | ⟨h, -⟩)
          · exact absurd rfl h
          · rcases hcases with ⟨e', h4, -, -, h5⟩ | ⟨chs, q, k', hg, -⟩
            · subst h4
              rcases h5 with ⟨h5, -⟩ | ⟨k, ⟨-, rfl⟩ | ⟨h5, -⟩, ⟨h6, -⟩ | ⟨-, t, h6, h7, -⟩⟩
              · simp [hp, h2] at h5
              · have := hc.ok.2.2.2.2.2.2.1.1; omega
              · simp only [hp, List.take_nil, List.append_nil] at h7
                rw [h] at h7; cases h7; rfl
              · simp [hp, h2] at h5
              · simp [hp, h2] at h5
            · obtain ⟨z, hz⟩ := hg.first
              rw [hp] at hz
              simp only [List.append_nil, List.take_nil] at hz
              rw [h] at hz; cases hz
          · omega
      · have hpos : 0 < new.length := List.length_pos_iff.2 hnew
        have hnc : calculateNchunks (new.length - (F.header.chunk_size - p.2.length)) (.int F.header.chunk_size) = .error .valueError := by
          refine ((C03_chunking_rejected _ (.int F.header.chunk_size)).2.2.2.2 ?_ F.header.chunk_size (.inl rfl)).1 ?_
          · rw [h2, hp]; simp; omega
          · omega
        have hr : r = .error .valueError := by
          rcases hcases with ⟨e', h4, -, -, h5⟩ | ⟨chs, q, k', hg, -⟩
          · rw [h4]
            rcases h5 with ⟨-, h5⟩ | ⟨k, ⟨h5, -⟩ | ⟨-, cs, lc, h5⟩, -⟩
            · rw [hnc] at h5; cases h5; rfl
            · exact absurd (by simpa [hp, h2] using h5) hnew
            · rw [hnc] at h5; cases h5
          · exfalso
            rcases hg.count with ⟨h5, -⟩ | ⟨-, cs, lc, h5⟩
            · exact absurd (by simpa [hp, h2] using h5) hnew
            · rw [hnc] at h5; cases h5
        rw [hr]
        constructor
        · rintro ⟨⟩; exact .inl ⟨h2, hnew, rfl⟩
        · rintro (⟨-, -, rfl⟩ | ⟨-, h, -⟩ | ⟨h, -⟩)
          · rfl
          · exact absurd h hnew
          · omega

/-- C100: `append` fails for the same reasons, and for one more: after it has appended nothing, it raises `ZeroDivisionError` (C44). -/
theorem C100_append_file (L : E.Laws) (hc : F.Conforming E) (hnn : F.NoNull) (new : Bytes) (args : AppendArgs)
    (hsize : (F.bytes E).length + 100 * new.length < 2 ^ 62) (e : Err) :
    (appendFile E (F.bytes E) new args).1 = .error e ↔
      Spec.AppendRefused E F.header F.data new (args.filled F.header) e ∨
      ((∀ e', ¬ Spec.AppendRefused E F.header F.data new (args.filled F.header) e') ∧ new = [] ∧ e = .zeroDivisionError) := by
  simp only [← C100_append L hc hnn new args hsize]
  unfold appendFile
  cases hrun : appendFp E { data := new } new.length args { data := F.bytes E } with
  | mk r fp =>
    cases r with
    | error e' => simp
    | ok k =>
      by_cases hn : new = []
      · subst hn; simp [eq_comm]
      · have : new.length ≠ 0 := by simpa using hn
        simp [hn]

end

/-! ### rewriting -/

theorem recreate_iff {E : Env μ} {old : MetadataHeader} (x : RewriteArgs) (hold : old.meta_checksum ∈ Spec.checksumNames) :
    (∀ e, recreateMetadata E old x = .error e ↔ Spec.OverridesRefused old x e) ∧
    ∀ m, recreateMetadata E old x = .ok m → m = Spec.overridden old x := by
  obtain ⟨io, ho1, ho2, ho3⟩ := checksumLookup_of (hl := E.hashlib) hold
  have hmax : (MAX_CLEVEL : Int) = 9 := by decide
  have hcod : codecsAvail = Spec.codecNames := by decide
  have hchk : checksumsAvail = Spec.checksumNames := by decide
  obtain ⟨f, c, k, l⟩ := x
  unfold recreateMetadata Spec.OverridesRefused Spec.overridden
  have hS : ∀ g, checkValidSerializer g = if g = [74, 83, 79, 78] then .ok () else .error .noSuchSerializer := by
    intro g; simp [checkValidSerializer, serializersAvail]
  have hC : ∀ c, checkValidChecksum c = if c ∈ Spec.checksumNames then .ok () else .error .noSuchChecksum := by
    intro c; simp only [checkValidChecksum, hchk]
  have hK : ∀ c, checkValidCodec c = if c ∈ Spec.codecNames then .ok () else .error .noSuchCodec := by
    intro c; simp only [checkValidCodec, hcod]
  have hR : ∀ l : Int, checkRange (.int l) 0 MAX_CLEVEL = if 0 ≤ l ∧ l ≤ 9 then .ok () else .error .valueError := by
    intro l; simp only [checkRange, hmax]
  have hL : ∀ c, c ∈ Spec.checksumNames → ∃ ic, checksumLookup E.hashlib c = .ok ic ∧ ic.size = Spec.digestSize c := by
    intro c hc
    obtain ⟨ic, h1, -, h3⟩ := checksumLookup_of (hl := E.hashlib) hc
    exact ⟨ic, h1, h3⟩
  simp only [hS, hC, hK, hR, ho1]
  have hpure : ∀ (m : MetadataArgs), (pure m : Except Err MetadataArgs) = .ok m := fun _ => rfl
  rcases f with _ | f
  · rcases c with _ | c
    · rcases k with _ | k
      · rcases l with _ | l
        · simp [hpure, Except.ok_bind', Except.error_bind', eq_comm]
        · by_cases h6 : 0 ≤ l ∧ l ≤ 9 <;> simp [h6, hpure, Except.ok_bind', Except.error_bind', eq_comm] <;> omega
      · by_cases h5 : k ∈ Spec.codecNames
        · rcases l with _ | l
          · simp [h5, hpure, Except.ok_bind', Except.error_bind', eq_comm]
          · by_cases h6 : 0 ≤ l ∧ l ≤ 9 <;> simp [h6, h5, hpure, Except.ok_bind', Except.error_bind', eq_comm] <;> omega
        · simp [h5, hpure, Except.ok_bind', Except.error_bind', eq_comm]
    · by_cases h2 : c ∈ Spec.checksumNames
      · obtain ⟨ic, hi1, hi2⟩ := hL c h2
        by_cases h3 : Spec.digestSize c = Spec.digestSize old.meta_checksum
        · have h3' : io.size = ic.size := by rw [hi2, ho3, h3]
          rcases k with _ | k
          · rcases l with _ | l
            · simp [h2, hi1, h3, h3', hpure, Except.ok_bind', Except.error_bind', eq_comm]
            · by_cases h6 : 0 ≤ l ∧ l ≤ 9 <;> simp [h6, h2, hi1, h3, h3', hpure, Except.ok_bind', Except.error_bind', eq_comm] <;> omega
          · by_cases h5 : k ∈ Spec.codecNames
            · rcases l with _ | l
              · simp [h2, hi1, h3, h3', h5, hpure, Except.ok_bind', Except.error_bind', eq_comm]
              · by_cases h6 : 0 ≤ l ∧ l ≤ 9 <;> simp [h6, h2, hi1, h3, h3', h5, hpure, Except.ok_bind', Except.error_bind', eq_comm] <;> omega
            · simp [h2, hi1, h3, h3', h5, hpure, Except.ok_bind', Except.error_bind', eq_comm]
        · have h3' : io.size ≠ ic.size := by rw [hi2, ho3]; exact fun h => h3 h.symm
          simp [h2, hi1, h3, h3', hpure, Except.ok_bind', Except.error_bind', eq_comm]
      · simp [h2, hpure, Except.ok_bind', Except.error_bind', eq_comm]
  · by_cases h1 : f = [74, 83, 79, 78]
    · rcases c with _ | c
      · rcases k with _ | k
        · rcases l with _ | l
          · simp [h1, hpure, Except.ok_bind', Except.error_bind', eq_comm]
          · by_cases h6 : 0 ≤ l ∧ l ≤ 9 <;> simp [h6, h1, hpure, Except.ok_bind', Except.error_bind', eq_comm] <;> omega
        · by_cases h5 : k ∈ Spec.codecNames
          · rcases l with _ | l
            · simp [h1, h5, hpure, Except.ok_bind', Except.error_bind', eq_comm]
            · by_cases h6 : 0 ≤ l ∧ l ≤ 9 <;> simp [h6, h1, h5, hpure, Except.ok_bind', Except.error_bind', eq_comm] <;> omega
          · simp [h1, h5, hpure, Except.ok_bind', Except.error_bind', eq_comm]
      · by_cases h2 : c ∈ Spec.checksumNames
        · obtain ⟨ic, hi1, hi2⟩ := hL c h2
          by_cases h3 : Spec.digestSize c = Spec.digestSize old.meta_checksum
          · have h3' : io.size = ic.size := by rw [hi2, ho3, h3]
            rcases k with _ | k
            · rcases l with _ | l
              · simp [h1, h2, hi1, h3, h3', hpure, Except.ok_bind', Except.error_bind', eq_comm]
              · by_cases h6 : 0 ≤ l ∧ l ≤ 9 <;> simp [h6, h1, h2, hi1, h3, h3', hpure, Except.ok_bind', Except.error_bind', eq_comm] <;> omega
            · by_cases h5 : k ∈ Spec.codecNames
              · rcases l with _ | l
                · simp [h1, h2, hi1, h3, h3', h5, hpure, Except.ok_bind', Except.error_bind', eq_comm]
                · by_cases h6 : 0 ≤ l ∧ l ≤ 9 <;> simp [h6, h1, h2, hi1, h3, h3', h5, hpure, Except.ok_bind', Except.error_bind', eq_comm] <;> omega
              · simp [h1, h2, hi1, h3, h3', h5, hpure, Except.ok_bind', Except.error_bind', eq_comm]
          · have h3' : io.size ≠ ic.size := by rw [hi2, ho3]; exact fun h => h3 h.symm
            simp [h1, h2, hi1, h3, h3', hpure, Except.ok_bind', Except.error_bind', eq_comm]
        · simp [h1, h2, hpure, Except.ok_bind', Except.error_bind', eq_comm]
    · simp [h1, Except.error_bind', eq_comm]

/-- C100: rewriting the metadata of a conforming file raises exactly the exception of the first reason to refuse it, and returns if there
is none. -/
theorem C100_rewrite (E : Env μ) (L : E.Laws) (F : File μ) (hc : F.Conforming E) (md : Option μ) (x : RewriteArgs) (e : Err) :
    (rewriteMetadata E md x { data := F.bytes E }).1 = .error e ↔
      Spec.RewriteRefused E (F.sec.map (fun s => (s.header, s.metadata))) md x e := by
  generalize hrun : rewriteMetadata E md x { data := F.bytes E } = res
  obtain ⟨r, fp⟩ := res
  unfold Spec.RewriteRefused
  rcases rewrite_run L hc md x [] _ _ hrun with ⟨e', h0, -, -, h1, h2, h3⟩ | ⟨s, s', hs, -, -, -, hne, h0, -, -, -, -, m, S, h1, h2, -⟩
  · subst h0
    show (Except.error e' : Except Err Unit) = .error e ↔ _
    cases hs : F.sec with
    | none => rw [h1 hs]; simp only [Except.error.injEq, Option.map_none, true_and, reduceCtorEq, false_and, exists_false, or_false]; exact eq_comm
    | some s =>
      obtain ⟨hiff, heq⟩ := recreate_iff (E := E) x (hc.sec_ok s hs).ok.2.2.1
      cases hq : E.metaEq s.metadata md with
      | true =>
        rw [h2 s hs hq]
        constructor
        · rintro ⟨⟩; exact .inr ⟨_, _, rfl, .inl ⟨hq, rfl⟩⟩
        · rintro (⟨h, -⟩ | ⟨_, _, h, ⟨-, h'⟩ | ⟨h', -⟩⟩)
          · cases h
          · rw [h']
          · cases h; rw [hq] at h'; cases h'
      | false =>
        simp only [Option.map_some, reduceCtorEq, false_and, Option.some.injEq, Prod.mk.injEq, false_or]
        constructor
        · rintro ⟨⟩
          refine ⟨_, _, ⟨rfl, rfl⟩, .inr ⟨hq, ?_⟩⟩
          rcases h3 s hs hq with h4 | ⟨m, h4, h5⟩
          · exact .inl ((hiff _).1 h4)
          · obtain rfl := heq m h4
            refine .inr ⟨fun e'' h => ?_, (metadata_error_iff L md _ _).1 h5⟩
            rw [(hiff _).2 h] at h4; cases h4
        · rintro ⟨_, _, ⟨rfl, rfl⟩, ⟨h, -⟩ | ⟨-, h⟩⟩
          · rw [hq] at h; cases h
          rcases h3 s hs hq with h4 | ⟨m, h4, h5⟩
          · rcases h with h | ⟨h, -⟩
            · rw [(hiff _).2 h] at h4; cases h4; rfl
            · exact absurd ((hiff _).1 h4) (h _)
          · obtain rfl := heq m h4
            rcases h with h | ⟨-, h⟩
            · rw [(hiff _).2 h] at h4; cases h4
            · rw [(metadata_error_iff L md _ _).2 h] at h5; cases h5; rfl
  · subst h0
    obtain ⟨hiff, heq⟩ := recreate_iff (E := E) x (hc.sec_ok s hs).ok.2.2.1
    obtain rfl := heq m h1
    rw [hs]
    constructor
    · intro h; cases h
    · rintro (⟨h, -⟩ | ⟨_, _, h, ⟨h', -⟩ | ⟨-, h' | ⟨-, h'⟩⟩⟩)
      · cases h
      · cases h; rw [hne] at h'; cases h'
      · cases h; rw [(hiff _).2 h'] at h1; cases h1
      · cases h; rw [(metadata_error_iff L md _ _).2 h'] at h2; cases h2

/-- C100: so both go through exactly if nothing speaks against it. -/
theorem C100_accepted (E : Env μ) (L : E.Laws) (F : File μ) (hc : F.Conforming E) :
    (∀ (new : Bytes) (args : AppendArgs), F.NoNull → (F.bytes E).length + 100 * new.length < 2 ^ 62 →
      ((∃ k, (appendFp E { data := new } new.length args { data := F.bytes E }).1 = .ok k) ↔
        ∀ e, ¬ Spec.AppendRefused E F.header F.data new (args.filled F.header) e)) ∧
    ∀ (md : Option μ) (x : RewriteArgs), (rewriteMetadata E md x { data := F.bytes E }).1 = .ok () ↔
      ∀ e, ¬ Spec.RewriteRefused E (F.sec.map (fun s => (s.header, s.metadata))) md x e := by
  constructor
  · intro new args hnn hsize
    simp only [← C100_append L hc hnn new args hsize]
    cases (appendFp E { data := new } new.length args { data := F.bytes E }).1 <;> simp
  · intro md x
    simp only [← C100_rewrite E L F hc md x]
    cases (rewriteMetadata E md x { data := F.bytes E }).1 <;> simp

/-- the reasons are met: no room, no offsets, settings blosc refuses, nothing to begin with; metadata too large, and two mistakes at a
time, of which the first counts -/
example : (packBytesToBytes Toy.env [1, 2, 3] (.int 2) (some 5) {} { max_app_chunks := .int 1 }
      { max_meta_size := .int 12 }).toOption.map (fun out =>
    [(appendFp Toy.env { data := [4, 5, 6, 7] } 4 {} { data := out }).1, (appendFp Toy.env { data := [4, 5, 6] } 3 {} { data := out }).1,
     (appendFp Toy.env { data := [4] } 1 { clevel := some 10 } { data := out }).1,
     (appendFp Toy.env { data := [4, 5, 6, 7] } 4 { clevel := some 10 } { data := out }).1]) =
      some [.error .notEnoughSpace, .ok 1, .error .valueError, .error .notEnoughSpace] ∧
    (packBytesToBytes Toy.env [1, 2, 3] (.int 2) (some 5) {} { max_app_chunks := .int 1 }
      { max_meta_size := .int 12 }).toOption.map (fun out =>
    [(rewriteMetadata Toy.env (some 7) { codec := some "lzma", level := some 10 } { data := out }).1,
     (rewriteMetadata Toy.env (some 7) { checksum := some "sha512", codec := some "lzma" } { data := out }).1]) =
      some [.error .noSuchCodec, .error .checksumLengthMismatch] := by
  decide +kernel

end Bloscpack
