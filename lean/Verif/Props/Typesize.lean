import Verif.Spec.Typesize
import Verif.Props.Session
/-
C75: the typesize in the header of a file is that of its chunks.
-/
namespace Bloscpack
open Spec
variable {μ : Type}

theorem decodeBloscHeader_typesize {b : Bytes} {bh : BloscHeader} (h : decodeBloscHeader b = .ok bh) :
    ∃ x, b[3]? = some x ∧ bh.typesize = x.toNat := by
  simp only [decodeBloscHeader, Except.bind_ok_iff] at h
  obtain ⟨_, _, _, _, _, _, x, hx, _, _, _, _, ct, hct, h⟩ := h
  unfold byteAt at hx
  split at hx
  · rename_i y hy
    cases hx
    cases h
    exact ⟨_, hy, rfl⟩
  · cases hx

theorem readChunk_typesize {impl : Hash} {data : Bytes} {pos : Nat} {c : Bytes} {bh : BloscHeader} {dg : Option Bytes} {s : FP}
    (h : readCompressedChunk impl { data := data, pos := pos } = (.ok (c, bh, dg), s)) :
    ∃ x, data[pos + 3]? = some x ∧ bh.typesize = x.toNat := by
  unfold readCompressedChunk at h
  have h1 : fpRead BLOSC_HEADER_LENGTH { data := data, pos := pos } =
      (.ok ((data.drop pos).take 16), { data := data, pos := pos + ((data.drop pos).take 16).length }) := rfl
  rw [Proc.bind_of_ok h1] at h
  cases hd : decodeBloscHeader ((data.drop pos).take 16) with
  | error e =>
    rw [Proc.bind_of_error (Proc.ofExcept_apply _ _ |>.trans (by rw [hd]))] at h
    cases h
  | ok bh' =>
    obtain ⟨x, hx, hx'⟩ := decodeBloscHeader_typesize hd
    rw [Proc.bind_of_ok (Proc.ofExcept_apply _ _ |>.trans (by rw [hd]))] at h
    have : bh' = bh := by
      revert h
      cases hq : fpSeekRel (-(BLOSC_HEADER_LENGTH : Int)) { data := data, pos := pos + ((data.drop pos).take 16).length } with
      | mk r fp =>
        cases r with
        | error e => intro h; rw [Proc.bind_of_error hq] at h; cases h
        | ok u =>
          intro h
          rw [Proc.bind_of_ok hq, Proc.bind_of_ok (show fpRead _ _ = (.ok _, _) from rfl)] at h
          split at h
          · rw [Proc.bind_of_ok (show fpRead _ _ = (.ok _, _) from rfl)] at h
            cases h; rfl
          · cases h; rfl
    rw [← this]
    refine ⟨x, ?_, hx'⟩
    rw [List.getElem?_take, if_pos (by decide), List.getElem?_drop] at hx
    exact hx

/-- the typesizes read from a conforming file are those in its chunks -/
theorem chunk_typesizes {E : Env μ} (L : E.Laws) {F : File μ} (hc : F.Conforming E) (ho : F.header.offsets = true) (ts : List Int)
    (hlen : ts.length = F.chunks.length)
    (hts : ∀ i (hi : i < F.chunks.length) (hj : i < ts.length), ∃ x : UInt8, F.chunks[i].1[3]? = some x ∧ (x.toNat : Int) = ts[i]) :
    ChunkTypesizes E (F.bytes E) F.header.typesize ts := by
  have hl : (Spec.positions (F.impl E).function (F.front E).length (F.chunks.map (·.1))).length = F.chunks.length := by
    rw [positions_length, List.length_map]
  refine ⟨_, _, _, _, _, _, hc.readBeginning L ho [], (File.lookup hc.toPre).1, rfl, ?_, by rw [hlen, hl], ?_⟩
  · rw [hl, hc.nchunks]
  · intro i hi hj
    have hi' : i < F.chunks.length := by omega
    rw [positions_getElem _ _ _ i (by simpa using hi')]
    obtain ⟨bh, s, h1⟩ := hc.toPre.read_at L i hi' []
    refine ⟨_, bh, _, s, h1, ?_⟩
    obtain ⟨x, hx, hx'⟩ := readChunk_typesize h1
    obtain ⟨y, hy, hy'⟩ := hts i hi' hj
    have : x = y := by
      have hsplit : F.chunks.map (·.1) = (F.chunks.map (·.1)).take i ++ F.chunks[i].1 :: (F.chunks.map (·.1)).drop (i + 1) := by
        have := List.getElem_cons_drop (as := F.chunks.map (·.1)) (i := i) (by simpa using hi')
        rw [List.getElem_map] at this
        rw [this, List.take_append_drop]
      have hb : F.bytes E = (F.front E ++ Spec.records (F.impl E).function ((F.chunks.map (·.1)).take i)) ++
          (F.chunks[i].1 ++ ((F.impl E).function F.chunks[i].1 ++
            (Spec.records (F.impl E).function ((F.chunks.map (·.1)).drop (i + 1)) ++ F.junk))) := by
        unfold File.bytes File.body
        conv => lhs; rw [hsplit]
        rw [records_append, records_cons]
        simp [List.append_assoc]
      have h3 : 3 < F.chunks[i].1.length := (List.getElem?_eq_some_iff.1 hy).1
      rw [hb, ← List.length_append, List.getElem?_append_right (by omega), Nat.add_sub_cancel_left,
        List.getElem?_append_left h3, hy] at hx
      cases hx; rfl
    rw [hx', this, hy']

/-- what appending does to the chunks -/
theorem append_chunks {E : Env μ} (L : E.Laws) {F : File μ} (hc : F.Conforming E) (hnn : F.NoNull) {new : Bytes}
    {args : AppendArgs} {k : Int} {fp : FP}
    (h : appendFp E { data := new } new.length args { data := F.bytes E } = (.ok k, fp)) :
    ∃ F' : File μ, fp.data = F'.bytes E ∧ F'.Conforming E ∧ F'.NoNull ∧ F'.header.typesize = F.header.typesize ∧
      F'.header.offsets = true ∧ (∀ r ∈ F'.chunks, r ∈ F.chunks ∨ E.compress r.2 (args.filled F.header) = .ok r.1) ∧
      ∃ init q, F'.chunks = init ++ [q] ∧ E.compress q.2 (args.filled F.header) = .ok q.1 := by
  cases ho : F.header.offsets with
  | false =>
    have := append_no_offsets L hc.toPre ho { data := new } new.length args []
    rw [h] at this; cases this
  | true =>
    obtain ⟨init, p, hch, -, ⟨e, h1, -⟩ | ⟨chs, q, k', hg, ⟨h1, h2, h3, -⟩ | ⟨-, ⟨e, h1⟩, -⟩⟩⟩ := append_cases L hc ho hnn h
    · cases h1
    · refine ⟨_, h3, hg.conforming L hc ho hch h1 _, ?_, rfl, ho, ?_, init ++ chs, q, ?_, hg.comp q (by simp)⟩
      · exact hnn
      · intro r hr
        rcases List.mem_append.1 hr with hr | hr
        · exact .inl (by rw [hch]; exact List.mem_append_left _ hr)
        · exact .inr (hg.comp r hr)
      · show init ++ (chs ++ [q]) = _
        rw [List.append_assoc]
    · cases h1

theorem typesize_byte {E : Env μ} (L : E.Laws) (hE : RecordsTypesize E) {d c : Bytes} {a : BloscArgs} (h : E.compress d a = .ok c) :
    ∃ x : UInt8, c[3]? = some x ∧ (x.toNat : Int) = a.typesize := by
  refine ⟨_, hE _ _ _ h, ?_⟩
  have := (L.compress_reject _ _ _ h).1
  have h2 := this.1
  have h3 := this.2.1
  simp
  omega

/-- the chunks of a file, and whether the typesize of its header is theirs -/
structure Uniform (E : Env μ) (F : File μ) : Prop where
  conf : F.Conforming E
  nonnull : F.NoNull
  offsets : F.header.offsets = true
  chunks : ∀ r ∈ F.chunks, ∃ x : UInt8, r.1[3]? = some x ∧ (x.toNat : Int) = F.header.typesize

theorem Uniform.observed {E : Env μ} (L : E.Laws) {F : File μ} (h : Uniform E F) :
    ChunkTypesizes E (F.bytes E) F.header.typesize (List.replicate F.chunks.length F.header.typesize) := by
  refine chunk_typesizes L h.conf h.offsets _ (by simp) ?_
  intro i hi hj
  rw [List.getElem_replicate]
  exact h.chunks _ (List.getElem_mem hi)

theorem history_uniform {E : Env μ} (L : E.Laws) (hE : RecordsTypesize E) {d d' : Bytes} {log : List (Op μ × Bool)}
    (h : Spec.History E d log d') (t : Int) (hlog : ∀ new x ok, (Op.append new x, ok) ∈ log → x.typesize = none ∨ x.typesize = some t) :
    ∀ F : File μ, d = F.bytes E → Uniform E F → F.header.typesize = t →
      ∃ F' : File μ, d' = F'.bytes E ∧ Uniform E F' ∧ F'.header.typesize = t := by
  induction h with
  | nil d => exact fun F h1 h2 h3 => ⟨F, h1, h2, h3⟩
  | @step d d' op ok log d'' run size rest ih =>
    rintro F rfl hu ht
    have key : ∃ F1 : File μ, d' = F1.bytes E ∧ Uniform E F1 ∧ F1.header.typesize = t := by
      cases op with
      | append new args =>
        simp only [Op.run] at run
        generalize hr : appendFp E { data := new } new.length args { data := F.bytes E } = r at run
        obtain ⟨r, fp⟩ := r
        cases r with
        | error e =>
          simp only [Except.toBool, Prod.mk.injEq] at run
          obtain ⟨rfl, rfl⟩ := run
          rw [(C16_failed_append_untouched E L F hu.conf hu.nonnull new args e fp hr size).1]
          exact ⟨F, rfl, hu, ht⟩
        | ok k =>
          simp only [Except.toBool, Prod.mk.injEq] at run
          obtain ⟨rfl, rfl⟩ := run
          obtain ⟨F', g1, g2, g3, g4, g5, g6, -⟩ := append_chunks L hu.conf hu.nonnull hr
          refine ⟨F', g1, ⟨g2, g3, g5, fun r hr => ?_⟩, by rw [g4, ht]⟩
          rw [g4]
          rcases g6 r hr with hr | hr
          · exact hu.chunks r hr
          · have := typesize_byte L hE hr
            have hf : (args.filled F.header).typesize = F.header.typesize := by
              unfold AppendArgs.filled
              rcases hlog new args _ (List.mem_cons_self ..) with h | h
              · rw [h]; rfl
              · rw [h, ht]; rfl
            rw [hf] at this
            exact this
      | rewrite md x =>
        simp only [Op.run] at run
        generalize hr : rewriteMetadata E (some md) x { data := F.bytes E } = r at run
        obtain ⟨r, fp⟩ := r
        cases r with
        | error e =>
          simp only [Except.toBool, Prod.mk.injEq] at run
          obtain ⟨rfl, rfl⟩ := run
          rw [(C11_failed_rewrite_untouched E _ _ _ _ _ hr).1]
          exact ⟨F, rfl, hu, ht⟩
        | ok k =>
          simp only [Except.toBool, Prod.mk.injEq] at run
          obtain ⟨rfl, rfl⟩ := run
          obtain ⟨-, -, -, -, F', g1, g2, g3, g4, g5, g6, -, g7, g8, -⟩ := C10_rewrite E L F hu.conf _ _ _ hr
          refine ⟨F', g1, ⟨g2, fun h => (by rw [g4] at h; cases h), by rw [g5]; exact hu.offsets, ?_⟩, by rw [g5, ht]⟩
          rw [g5, g7]; exact hu.chunks
    obtain ⟨F1, h1, h2, h3⟩ := key
    exact ih (fun new x ok hx => hlog new x ok (List.mem_cons_of_mem _ hx)) F1 h1 h2 h3

/-- a freshly packed file -/
theorem packed_uniform {E : Env μ} (L : E.Laws) (hE : RecordsTypesize E) {data : Bytes} {cs : ChunkSizeArg} {md : Option μ} {a : BloscArgs}
    {b : BloscpackArgs} {m : MetadataArgs} {out : Bytes} (hb : b.offsets = true) (h : packBytesToBytes E data cs md a b m = .ok out) :
    ∃ F : File μ, out = F.bytes E ∧ Uniform E F ∧ F.header.typesize = a.typesize := by
  obtain ⟨F, n, c, l, m', h1, h2, -, h3, h4, h5, h6, h7, h8⟩ := packBytesToBytes_ok L h
  have ht := (packHeader_ok h7).2.2.2.2.2.1
  refine ⟨F, h1, ⟨h2, ?_, (packHeader_ok h7).2.2.1.trans hb, fun r hr => ?_⟩, ht⟩
  · intro hn
    have := h5.isSome
    rw [← h4, hn] at this
    cases hs : F.sec with
    | none => rfl
    | some s => rw [hs] at this; cases this
  · rw [ht]; exact typesize_byte L hE (h8 r hr)

/-- C75, what holds: pack with any settings (and offsets), append and rewrite the metadata any number of times, never
asking for another typesize: the file's header and every chunk give the typesize asked for when packing. -/
theorem C75_uniform_partial (E : Env μ) (L : E.Laws) (hE : RecordsTypesize E) (data : Bytes) (cs : ChunkSizeArg) (md : Option μ)
    (a : BloscArgs) (b : BloscpackArgs) (m : MetadataArgs) (hb : b.offsets = true) (out : Bytes)
    (h : packBytesToBytes E data cs md a b m = .ok out) (log : List (Op μ × Bool)) (d : Bytes) (hist : Spec.History E out log d)
    (hlog : ∀ new x ok, (Op.append new x, ok) ∈ log → x.typesize = none ∨ x.typesize = some a.typesize) :
    ∃ n, ChunkTypesizes E d a.typesize (List.replicate n a.typesize) := by
  obtain ⟨F, rfl, h1, h2⟩ := packed_uniform L hE hb h
  obtain ⟨F', rfl, h3, h4⟩ := history_uniform L hE hist a.typesize hlog F rfl h1 h2
  have := h3.observed L
  rw [h4] at this
  exact ⟨_, this⟩

/-- the typesizes in the chunks of any conforming file -/
theorem conforming_typesizes {E : Env μ} (L : E.Laws) {F : File μ} (hc : F.Conforming E) (ho : F.header.offsets = true) {t : Int}
    (hlast : ∃ init q, F.chunks = init ++ [q] ∧ ∃ x : UInt8, q.1[3]? = some x ∧ (x.toNat : Int) = t) :
    ∃ ts, ChunkTypesizes E (F.bytes E) F.header.typesize (ts ++ [t]) := by
  obtain ⟨init, q, h1, x, h2, h3⟩ := hlast
  have hpre := hc.chunks_ok
  refine ⟨init.map (fun p => (((p.1[3]?).getD 0).toNat : Int)), chunk_typesizes L hc ho _ (by rw [h1]; simp) ?_⟩
  intro i hi hj
  have hmem := List.getElem_mem hi
  have h16 := (L.decompress_length _ _ (hpre _ hmem)).1
  simp only [h1] at hi ⊢
  by_cases hlt : i < init.length
  · rw [List.getElem_append_left hlt, List.getElem_append_left (by simpa using hlt), List.getElem_map]
    simp only [h1, List.getElem_append_left hlt] at h16
    refine ⟨_, List.getElem?_eq_getElem (by omega), ?_⟩
    rw [List.getElem?_eq_getElem (by omega)]; rfl
  · have : i = init.length := by simp at hi; omega
    subst this
    refine ⟨x, ?_, ?_⟩
    · rw [List.getElem_append_right (by omega)]; simpa using h2
    · rw [List.getElem_append_right (by simp)]; simpa using h3

/-- C75, violated: an append to which another typesize is given succeeds and leaves a last chunk of that typesize in the file, whose
header goes on to give the typesize it was packed with. -/
theorem C75_violated (E : Env μ) (L : E.Laws) (hE : RecordsTypesize E) (data : Bytes) (cs : ChunkSizeArg) (md : Option μ)
    (a : BloscArgs) (b : BloscpackArgs) (m : MetadataArgs) (hb : b.offsets = true) (out : Bytes)
    (h : packBytesToBytes E data cs md a b m = .ok out) (new : Bytes) (x : AppendArgs) (t : Int) (hx : x.typesize = some t) (k : Int) (fp : FP)
    (hap : appendFp E { data := new } new.length x { data := out } = (.ok k, fp)) :
    ∃ ts, ChunkTypesizes E fp.data a.typesize (ts ++ [t]) := by
  obtain ⟨F, rfl, h1, h2⟩ := packed_uniform L hE hb h
  obtain ⟨F', g1, g2, g3, g4, g5, -, init, q, g6, g7⟩ := append_chunks L h1.conf h1.nonnull hap
  have := typesize_byte L hE g7
  have hf : (x.filled F.header).typesize = t := by unfold AppendArgs.filled; rw [hx]; rfl
  rw [hf] at this
  obtain ⟨ts, hts⟩ := conforming_typesizes L g2 g5 ⟨init, q, g6, this⟩
  rw [g1, ← h2, ← g4]
  exact ⟨ts, hts⟩

/-- C75, violated on the command line: `blpk append` without `-t` does not take the typesize from the file's header. Whatever the typesize the
file was packed with, the last chunk afterwards has typesize 8. -/
theorem C75_blpk_violated (E : Env μ) (L : E.Laws) (hE : RecordsTypesize E) (S : Shown μ) (P : ParserEnv) (prog : List Char)
    (c : CommandLine) (fs : FS) (name : String) (items : List CliItem) (O N : String) (hacc : Accepted E P c)
    (hs : c.subcommand = some (name, items)) (hcmd : name = "append" ∨ name = "a") (hfiles : positionals items = [O, N]) (hne : N ≠ O)
    (hm : valuesOf ["-m", "--metadata"] items = []) (ht : valuesOf ["-t", "--typesize"] items = [])
    (data : Bytes) (cs : ChunkSizeArg) (md : Option μ)
    (a : BloscArgs) (b : BloscpackArgs) (m : MetadataArgs) (hb : b.offsets = true) (out : Bytes)
    (h : packBytesToBytes E data cs md a b m = .ok out) (ho : fs.files O = some out)
    (hok : (blpkMain E S P prog c fs).1 = .ok ()) :
    ∃ d ts, (blpkMain E S P prog c fs).2.fs.files O = some d ∧ ChunkTypesizes E d a.typesize (ts ++ [8]) := by
  have hset := settings_of (E := E) (P := P) (cmd := .append) hs (by rcases hcmd with rfl | rfl <;> decide)
  rw [C72_accepted E S P prog c fs hacc] at hok ⊢
  have hap : IsAppend (settings c) := by
    unfold IsAppend
    rw [hset, withFiles_subcommand]
    rcases hcmd with rfl | rfl
    · exact .inl rfl
    · exact .inr rfl
  have h1 : (settings c).original_file = O := by rw [hset, hfiles]; rfl
  have h2 : (settings c).new_file = N := by rw [hset, hfiles]; rfl
  have h3 : (settings c).metadata = none := by rw [hset]; show setting ["-m", "--metadata"] items none _ = none; unfold setting; rw [hm]; rfl
  have h4 : (settings c).blosc.typesize = 8 := by
    rw [hset]; show setting ["-t", "--typesize"] items 8 _ = 8; unfold setting; rw [ht]; rfl
  generalize settings c = args at *
  rw [blpk_result, cliMain_append E S hap] at hok
  rw [blpk_fs, cliMain_append E S hap]
  have hfs : (startWorld prog args fs).fs = fs := rfl
  rcases cliAppend_cases E args (startWorld prog args fs) with ⟨-, ⟨e, k2⟩, -⟩ | ⟨want, orig, new, hw, -, hn, ⟨e, k1, k2⟩ | ⟨k1, k2⟩⟩
  · rw [k2] at hok; cases hok
  · rw [k2] at hok; cases hok
  · have hwant : want = none := by
      unfold processMetadataArgs at hw
      rw [h3] at hw
      cases hw; rfl
    subst hwant
    rw [hfs] at k1 k2 hn
    rw [h1, h2] at k1 k2
    rw [h2] at hn
    rw [k2]
    show ∃ d ts, (appendNamed E O N (.ofBlosc args.blosc) fs).2.files O = some d ∧ _
    have hcan : fs.canWrite O = true := by
      cases hcw : fs.canWrite O with
      | true => rfl
      | false =>
        unfold appendNamed FS.getsize FS.openRead FS.openUpdate at k1
        rw [ho, hn, hcw] at k1
        cases k1
    revert k1
    unfold appendNamed FS.getsize FS.openRead FS.openUpdate
    rw [ho, hn, hcan]
    simp only [if_true]
    have hput : ∀ d, (fs.put O d).files O = some d := by intro d; simp [FS.put]
    rw [hput]
    unfold appendFile
    generalize hrun : appendFp E { data := new } new.length (.ofBlosc args.blosc) { data := out } = res
    obtain ⟨r, fp⟩ := res
    cases r with
    | error e => intro k1; cases k1
    | ok k =>
      intro _
      obtain ⟨ts, hts⟩ := C75_violated E L hE data cs md a b m hb out h new (.ofBlosc args.blosc) 8 (by unfold AppendArgs.ofBlosc; rw [h4]) k fp hrun
      refine ⟨fp.data, ts, ?_, hts⟩
      simp only
      split <;> rfl

/-- the environment of the examples -/
theorem Toy.records_typesize : RecordsTypesize Toy.env := by
  intro d a c h
  have h : Toy.compress d a = .ok c := h
  unfold Toy.compress at h
  split at h
  · cases h; rfl
  · cases h

namespace TypesizeExample
/-- the typesizes in the header and the chunks -/
def sizes (d : Bytes) : List Int :=
  match (readBeginning Toy.env { data := d }).1.toOption with
  | some b => b.1.typesize :: b.2.2.2.map (fun o => ((d.getD (o.toNat + 3) 0).toNat : Int))
  | none => []
def packed : Bytes := (packBytesToBytes Toy.env [1, 2, 3, 4] (.int 4) none { typesize := 4 } { max_app_chunks := .int 2 } {}).toOption.getD []
def first : Except Err Int × FP := appendFp Toy.env { data := [5, 6] } 2 {} { data := packed }
def second : Except Err Int × FP := appendFp Toy.env { data := [7] } 1 { typesize := some 2 } { data := first.2.data }

/-- packed with typesize 4, appended to with the typesize of the file, and with typesize 2 -/
example : sizes packed = [4, 4] ∧ first.1.toOption = some 1 ∧ sizes first.2.data = [4, 4, 4] ∧ second.1.toOption = some 0 ∧
    sizes second.2.data = [4, 4, 2] := by decide +kernel

/-- the theorems apply -/
example : (∃ n, ChunkTypesizes Toy.env first.2.data 4 (List.replicate n 4)) ∧
    ∃ ts, ChunkTypesizes Toy.env (appendFp Toy.env { data := [7] } ([7] : Bytes).length { typesize := some 2 } ({ data := packed } : FP)).2.data 4 (ts ++ [2]) := by
  have hp : packBytesToBytes Toy.env [1, 2, 3, 4] (.int 4) none { typesize := 4 } { max_app_chunks := .int 2 } {} = .ok packed := by decide +kernel
  refine ⟨C75_uniform_partial Toy.env Toy.laws Toy.records_typesize _ _ _ _ _ _ rfl _ hp [(.append [5, 6] {}, true)] _
    (.step (d' := first.2.data) (by decide +kernel) (by decide +kernel) (.nil _)) ?_, ?_⟩
  · intro new x ok hx
    simp only [List.mem_singleton, Prod.mk.injEq, Op.append.injEq] at hx
    rw [hx.1.2]; exact .inl rfl
  · exact C75_violated Toy.env Toy.laws Toy.records_typesize _ _ _ _ _ _ rfl _ hp [7] { typesize := some 2 } 2 rfl 1 _
      (Prod.ext (by decide +kernel) (by with_reducible rfl))

/-- `blpk compress -t 4`, then `blpk append` -/
example :
    (let fs1 := (SessionExample.run { subcommand := some ("c", [.value "-t" "4".toList, .positional "f"]) } SessionExample.files).2.fs
     let r := SessionExample.run SessionExample.append fs1
     sizes ((fs1.files "f.blp").getD []) = [4, 4] ∧ exitCode r.1 = 0 ∧ sizes ((r.2.fs.files "f.blp").getD []) = [4, 8, 8]) := by decide +kernel
end TypesizeExample

end Bloscpack
