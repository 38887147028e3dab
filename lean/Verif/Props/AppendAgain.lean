import Verif.Lemmas.Alike
import Verif.Props.Append
import Verif.Examples.Toy

/-! C95: appending again with the same file object. -/
namespace Bloscpack
variable {μ α β : Type}

/-! ### where `append_fp` leaves the file object -/

/-- a procedure that, when it succeeds, leaves the file object behind what it wrote last -/
def EndsWrite (m : Proc FP α) : Prop :=
  ∀ fp a fp', m fp = (.ok a, fp') → ∃ l p bs, fp'.log = l ++ [(p, bs)] ∧ fp'.pos = p + bs.length

namespace EndsWrite

theorem bind (m : Proc FP α) {f : α → Proc FP β} (hf : ∀ a, EndsWrite (f a)) : EndsWrite (m >>= f) := by
  intro fp b fp' h
  obtain ⟨a, fp1, -, h2⟩ := Proc.bind_ok_iff.mp h
  exact hf a _ _ _ h2

theorem write (bs : Bytes) (a : α) : EndsWrite (do fpWrite bs; Proc.pure a) := by
  intro fp b fp' h
  cases h
  exact ⟨fp.log, fp.pos, bs, rfl, rfl⟩

theorem offsets (os : List Int) (a : α) : EndsWrite (do writeOffsets os; Proc.pure a) := by
  intro fp b fp' h
  obtain ⟨u, fp1, h1, h2⟩ := Proc.bind_ok_iff.mp h
  unfold writeOffsets at h1
  obtain ⟨raw, fp2, h3, h4⟩ := Proc.bind_ok_iff.mp h1
  cases h2
  cases h4
  exact ⟨fp2.log, fp2.pos, raw, rfl, rfl⟩

theorem appendFp (E : Env μ) (new : FP) (n : Int) (x : AppendArgs) : EndsWrite (appendFp E new n x) := by
  unfold Bloscpack.appendFp appendFrom
  refine bind _ fun b => bind _ fun _ => bind _ fun _ => bind _ fun _ => bind _ fun _ => bind _ fun _ => bind _ fun _ => bind _ fun _ =>
    bind _ fun d => ?_
  dsimp only
  split
  · unfold squeezeIn
    exact bind _ fun _ => bind _ fun _ => bind _ fun _ => bind _ fun _ => bind _ fun _ => write _ _
  · unfold growBy
    exact bind _ fun _ => bind _ fun _ => bind _ fun _ => bind _ fun _ => bind _ fun _ => bind _ fun _ => bind _ fun _ =>
      bind _ fun _ => bind _ fun _ => bind _ fun _ => offsets _ _

end EndsWrite

/-- a file object at a position where there is no Bloscpack header -/
theorem append_no_magic (E : Env μ) (new : FP) (n : Int) (args : AppendArgs) (fp : FP) (b : UInt8) (rest : Bytes)
    (h : fp.data.drop fp.pos = b :: rest) (hb : b ≠ 98) :
    (appendFp E new n args fp).1 = .error .valueError ∧ (appendFp E new n args fp).2.data = fp.data := by
  have hd : BloscpackHeader.decode (fp.read 32).1 = .error .valueError := by
    have hr : (fp.read 32).1 = b :: rest.take 31 := by
      unfold FP.read
      simp [h]
    rw [hr]
    unfold BloscpackHeader.decode
    by_cases hl : (b :: rest.take 31).length ≠ BLOSCPACK_HEADER_LENGTH
    · rw [if_pos hl]; rfl
    · rw [if_neg hl, if_pos ?_]
      · rfl
      · intro hm
        have := congrArg List.head? hm
        simp [slice, MAGIC] at this
        exact hb this
  have hh : readBloscpackHeader fp = (.error .valueError, (fp.read 32).2) := by
    unfold readBloscpackHeader
    have : fpRead (σ := FP) (BLOSCPACK_HEADER_LENGTH : Nat) fp = (.ok (fp.read 32).1, (fp.read 32).2) := rfl
    rw [Proc.bind_of_ok this, Proc.bind_of_error (Proc.ofExcept_apply _ _ |>.trans (by rw [hd]))]
  have : appendFp E new n args fp = (.error .valueError, (fp.read 32).2) := by
    unfold appendFp appendFrom readBeginning
    rw [Proc.bind_of_error (Proc.bind_of_error hh)]
  rw [this]
  exact ⟨rfl, rfl⟩

/-- the first byte of an offsets section whose first chunk starts at a multiple of eight -/
theorem leBytes_head (o : Nat) (ho : o % 8 = 0) : ∃ b t, Spec.leBytes 8 (o : Int) = b :: t ∧ b ≠ 98 := by
  refine ⟨_, _, rfl, ?_⟩
  intro h
  have := congrArg UInt8.toNat h
  simp at this
  omega

/-- what comes after the header of a file with offsets is not a header -/
theorem File.Conforming.after_header {E : Env μ} {F : File μ} (hc : F.Conforming E) (ho : F.header.offsets = true) :
    ∃ b rest, (F.bytes E).drop 32 = b :: rest ∧ b ≠ 98 := by
  have hb : (F.bytes E).drop 32 = F.secBytes E ++ (F.offsets ++ (F.body E ++ F.junk)) := by
    unfold File.bytes File.front
    rw [List.append_assoc, List.append_assoc]
    exact List.drop_left' (BloscpackHeader.bytes_length _)
  rw [hb]
  cases hs : F.sec with
  | some s =>
    have hm := (hc.sec_ok s hs).magic
    have h74 : ∃ t, s.header.bytes = 74 :: t := by
      unfold MetadataHeader.bytes Spec.metaHeaderBytes
      rw [hm]
      exact ⟨_, rfl⟩
    obtain ⟨t, ht⟩ := h74
    unfold File.secBytes Section.bytes
    rw [hs]
    simp only [ht, List.cons_append]
    exact ⟨74, _, rfl, by decide⟩
  | none =>
    obtain ⟨init, p, hch, -⟩ := hc.lengths
    have hlen := File.front_length hc.toPre
    have hsl : F.secBytes E = [] := by unfold File.secBytes; rw [hs]
    obtain ⟨b, t, hbt, hne⟩ := leBytes_head (F.front E).length (by
      rw [hlen, hsl]; unfold offsetsLen; rw [if_pos ho]; simp only [List.length_nil]; omega)
    obtain ⟨c, cs, hcs⟩ : ∃ c cs, F.chunks = c :: cs := by
      rw [hch]
      cases init with
      | nil => exact ⟨_, _, rfl⟩
      | cons x y => exact ⟨_, _, rfl⟩
    rw [hsl, hc.table ho, hcs]
    simp only [List.map_cons, Spec.positions, List.cons_append, int64s_cons, List.nil_append, hbt]
    exact ⟨b, _, rfl, hne⟩

/-- what comes after the entries of the chunks in an offsets section with room for more -/
theorem File.Conforming.after_entries {E : Env μ} {F : File μ} (hc : F.Conforming E) (ho : F.header.offsets = true)
    (hroom : 0 < F.header.max_app_chunks) :
    ∃ b rest, (F.bytes E).drop (32 + (F.secBytes E).length + 8 * F.chunks.length) = b :: rest ∧ b ≠ 98 := by
  have hb : F.bytes E = (F.header.bytes ++ (F.secBytes E ++
      Spec.int64s (Spec.positions (F.impl E).function (F.front E).length (F.chunks.map (·.1))))) ++
      (Spec.int64s (List.replicate F.header.max_app_chunks.toNat (-1)) ++ (F.body E ++ F.junk)) := by
    conv => lhs; unfold File.bytes; rw [show F.front E = F.header.bytes ++ (F.secBytes E ++ F.offsets) from rfl]; rw [hc.table ho, int64s_append]
    simp only [List.append_assoc]
  rw [hb, List.drop_left' (by
    rw [List.length_append, List.length_append, BloscpackHeader.bytes_length, int64s_length, positions_length, List.length_map]; omega)]
  obtain ⟨m, hm⟩ : ∃ m, F.header.max_app_chunks.toNat = m + 1 := ⟨F.header.max_app_chunks.toNat - 1, by omega⟩
  rw [hm, List.replicate_succ, int64s_cons]
  exact ⟨255, _, rfl, by decide⟩

/-- C95 is violated: whenever `append_fp` succeeded and did not use up the room for new chunks, calling it again with the same file object, on
whatever new content, raises `ValueError` and appends nothing: it does not go back to the beginning of the file and takes for a header what
comes after the bytes that were written last. -/
theorem C95_violated (E : Env μ) (L : E.Laws) (F : File μ) (hc : F.Conforming E) (hnn : F.NoNull) (new : Bytes)
    (args : AppendArgs) (k : Int) (fp : FP)
    (h : appendFp E { data := new } new.length args { data := F.bytes E } = (.ok k, fp))
    (hroom : k = 0 ∨ k < F.header.max_app_chunks) (more : FP) (n : Int) (args' : AppendArgs) :
    (appendFp E more n args' fp).1 = .error .valueError ∧ (appendFp E more n args' fp).2.data = fp.data := by
  obtain ⟨-, F', hd, hc', -, -, -, -, -, hm, -, ho, -, -, hk, -⟩ := C13_append E L F hc hnn new args k fp h
  cases ho0 : F.header.offsets with
  | false =>
    have := append_no_offsets L hc.toPre ho0 { data := new } new.length args []
    rw [h] at this; cases this
  | true =>
  obtain ⟨init, p, hch, -, ⟨e, h1, -⟩ | ⟨chs, q, k', hg, ⟨h1, h2, h3, h4⟩ | ⟨-, ⟨e, h1⟩, -⟩⟩⟩ := append_cases L hc ho0 hnn h
  · cases h1
  · cases h2
    obtain ⟨l, at_, bs, h5, h6⟩ := EndsWrite.appendFp E _ _ _ _ _ _ h
    rw [h4] at h5
    have hfile : ∃ b rest, fp.data.drop fp.pos = b :: rest ∧ b ≠ 98 := by
      have hcf := hg.conforming L hc ho0 hch h1 (p.1 ++ ((F.impl E).function p.1 ++ F.junk))
      generalize p.1 ++ ((F.impl E).function p.1 ++ F.junk) = tail at *
      rw [h3, h6]
      unfold grownLog at h5
      by_cases hempty : chs = []
      · subst hempty
        rw [if_pos rfl, List.nil_append] at h5
        have := (List.append_inj' h5 rfl).2
        simp only [List.cons.injEq, Prod.mk.injEq, and_true] at this
        obtain ⟨rfl, rfl⟩ := this
        rw [BloscpackHeader.bytes_length]
        exact hcf.after_header ho0
      · rw [if_neg hempty, List.nil_append, List.append_cons] at h5
        have := (List.append_inj' h5 rfl).2
        simp only [List.cons.injEq, Prod.mk.injEq, and_true] at this
        obtain ⟨rfl, rfl⟩ := this
        have hpos : 0 < chs.length := List.length_pos_iff.mpr hempty
        have hnum := hg.number
        have hsp : 0 < (grownFile E F init (chs ++ [q]) q.2.length tail).header.max_app_chunks := by
          show 0 < F.header.max_app_chunks - (((chs ++ [q]).length : Nat) - 1 : Int)
          rw [List.length_append]
          simp only [List.length_singleton]
          omega
        have := hcf.after_entries ho0 hsp
        rw [int64s_length, positions_length, List.length_map]
        exact this
    obtain ⟨b, rest, h7, h8⟩ := hfile
    exact append_no_magic E more n args' fp b rest h7 h8
  · cases h1

/-- C95 (partial): a program that goes back to the beginning with `seek(0)` first can append again with the same file object, whatever was done
with it before: the same is returned or raised as for the same contents in a file just opened, and the contents become the same. -/
theorem C95_rewound_partial (E : Env μ) (fp new : FP) (n : Int) (args : AppendArgs) :
    let again := (do fpSeek 0; appendFp E new n args : Proc FP Int) fp
    let opened := appendFp E new n args { data := fp.data, inMemory := fp.inMemory }
    again.1 = opened.1 ∧ again.2.data = opened.2.data := by
  intro again opened
  have hs : fpSeek 0 fp = (.ok (), FP.after fp.log { data := fp.data, inMemory := fp.inMemory }) := by
    simp only [fpSeek_eq]; unfold FP.seek FP.after
    simp
  have ha : again = appendFp E new n args (FP.after fp.log { data := fp.data, inMemory := fp.inMemory }) := Proc.bind_of_ok hs
  rcases Alike.appendFrom (FP.after_carrier fp.log) E (fun n => (new.read n).1)
      (fun b cs lc k => (plainFPSource (new.read b).2 cs lc k).items) n args { data := fp.data, inMemory := fp.inMemory } with h | ⟨h, -⟩
  · have h : appendFp E new n args (FP.after fp.log { data := fp.data, inMemory := fp.inMemory }) = (opened.1, FP.after fp.log opened.2) := h
    rw [ha, h]
    exact ⟨rfl, rfl⟩
  · exact h.elim

/-! ### the data after two appends -/

/-- a procedure that works on the file it was given, whether in memory or not -/
def SinkSameKind (m : Proc FPSink α) : Prop := ∀ s, (m s).2.fp.inMemory = s.fp.inMemory

theorem SinkSameKind.bind {m : Proc FPSink α} {f : α → Proc FPSink β} (hm : SinkSameKind m) (hf : ∀ a, SinkSameKind (f a)) :
    SinkSameKind (m >>= f) := by
  intro s
  have h := hm s
  rw [Proc.bind_apply]
  generalize m s = q at h
  obtain ⟨r, s'⟩ := q
  cases r with
  | error e => exact h
  | ok a => exact (hf a s').trans h

theorem SameKind.seek (n : Int) : SameKind (fpSeek n) := by
  intro fp
  simp only [fpSeek_eq]; unfold FP.seek
  by_cases h : n < 0 <;> simp [h]

theorem SameKind.write (bs : Bytes) : SameKind (fpWrite bs) := fun _ => rfl

theorem SameKind.writeCompressedChunk (c d : Bytes) : SameKind (writeCompressedChunk c d) := by
  unfold Bloscpack.writeCompressedChunk
  refine bind (write _) fun _ => ?_
  split
  · exact write _
  · exact pure _

theorem SameKind.readCompressedChunk (impl : Hash) : SameKind (readCompressedChunk (σ := FP) impl) := by
  unfold Bloscpack.readCompressedChunk
  refine bind (read _) fun _ => bind (ofExcept _) fun _ => bind (seekRel _) fun _ => bind (read _) fun _ => ?_
  split
  · exact bind (read _) fun _ => pure _
  · exact pure _

theorem SinkSameKind.appendLoop (E : Env μ) (a : BloscArgs) (i : Nat) (cs : List Bytes) : SinkSameKind (appendLoop E a i cs) := by
  induction cs generalizing i with
  | nil => exact fun _ => rfl
  | cons c cs ih =>
    refine bind (fun _ => rfl) fun _ => bind ?_ fun _ => ih _
    unfold FPSink.put
    refine bind (fun _ => rfl) fun s => bind (fun s => SameKind.writeCompressedChunk _ _ s.fp) fun _ => ?_
    split
    · exact bind (fun _ => rfl) fun _ _ => rfl
    · exact fun _ => rfl

theorem SameKind.withSink (h : BloscpackHeader) (impl : Hash) (st : List Int) {m : Proc FPSink α} (hm : SinkSameKind m) :
    SameKind (withSink h impl st m) := by
  intro fp
  have := hm { fp := fp, header := h, impl := impl, offset_storage := st }
  unfold Bloscpack.withSink
  split <;> rename_i h <;> rw [h] at this <;> exact this

theorem SameKind.appendFp (E : Env μ) (new : FP) (n : Int) (x : AppendArgs) : SameKind (appendFp E new n x) := by
  unfold Bloscpack.appendFp appendFrom
  refine bind (readBeginning E) fun b => bind (ofExcept _) fun _ => bind (raiseIf _ _) fun _ =>
    bind (ofExcept _) fun _ => bind (ofExcept _) fun _ => bind (ofExcept _) fun _ => bind (seek _) fun _ =>
    bind (readCompressedChunk _) fun _ => bind (ofExcept _) fun d => ?_
  dsimp only
  split
  · unfold squeezeIn
    exact bind (seek _) fun _ => bind (ofExcept _) fun _ => bind (writeCompressedChunk _ _) fun _ =>
      bind (ofExcept _) fun _ => bind (seek _) fun _ => bind (write _) fun _ => pure _
  · unfold growBy
    exact bind (ofExcept _) fun _ => bind (raiseIf _ _) fun _ => bind (seek _) fun _ => bind (ofExcept _) fun _ =>
      bind (writeCompressedChunk _ _) fun _ => bind (withSink _ _ _ (.appendLoop _ _ _ _)) fun _ => bind (ofExcept _) fun _ =>
      bind (seek _) fun _ => bind (write _) fun _ => bind (seek _) fun _ =>
      bind (bind (ofExcept _) fun _ => write _) fun _ => pure _

/-- C95 (partial): so, with `seek(0)` in between, two successful appends with one file object leave an archive of the old data and both new
contents, one after the other. -/
theorem C95_twice_partial (E : Env μ) (L : E.Laws) (F : File μ) (hc : F.Conforming E) (hnn : F.NoNull) (new more : Bytes)
    (args args' : AppendArgs) (k k' : Int) (fp : FP)
    (h : (do
        let k ← appendFp E { data := new } new.length args
        fpSeek 0
        let k' ← appendFp E { data := more } more.length args'
        Proc.pure (k, k') : Proc FP (Int × Int)) { data := F.bytes E } = (.ok (k, k'), fp)) :
    unpackBytesFromBytes E fp.data = .ok (F.data ++ new ++ more, F.metadata) := by
  obtain ⟨k1, fp1, h1, h2⟩ := Proc.bind_ok_iff.mp h
  obtain ⟨u, fp2, h3, h4⟩ := Proc.bind_ok_iff.mp h2
  obtain ⟨k2, fp3, h5, h6⟩ := Proc.bind_ok_iff.mp h4
  cases h6
  obtain ⟨-, F', hd, hc', hnn', hdata, hmd, -⟩ := C13_append E L F hc hnn new args k fp1 h1
  have hk : fp1.inMemory = false := by
    have := SameKind.appendFp E { data := new } new.length args { data := F.bytes E }
    rw [h1] at this
    exact this
  have hag : (do fpSeek 0; appendFp E { data := more } more.length args' : Proc FP Int) fp1 = (.ok k', fp) :=
    (Proc.bind_of_ok h3).trans h5
  obtain ⟨hr1, hr2⟩ := C95_rewound_partial E fp1 { data := more } more.length args'
  rw [hag, hk, hd] at hr1 hr2
  generalize hq : appendFp E { data := more } more.length args' { data := F'.bytes E } = q at hr1 hr2
  obtain ⟨r, fp4⟩ := q
  cases hr1
  have := (C13_append E L F' hc' hnn' more args' k' fp4 hq).1
  rw [hdata, hmd] at this
  rw [show fp.data = fp4.data from hr2]
  exact this

/-- a chunk is appended; the second append raises, the one after `seek(0)` works -/
example : (packBytesToBytes Toy.env [1, 2, 3, 4, 5] (.int 2) none {} {} {}).toOption.map (fun x =>
      let f := appendFp Toy.env { data := [6, 7] } 2 {} { data := x }
      let g := appendFp Toy.env { data := [8] } 1 {} f.2
      let h := (do fpSeek 0; appendFp Toy.env { data := [8] } 1 {} : Proc FP Int) f.2
      [decide (f.1 = .ok 1), decide (g.1 = .error .valueError), decide (g.2.data = f.2.data), decide (h.1 = .ok 0),
       decide ((unpackBytesFromBytes Toy.env h.2.data).toOption.map (·.1) = some [1, 2, 3, 4, 5, 6, 7, 8])]) =
    some [true, true, true, true, true] := by decide +kernel

end Bloscpack
