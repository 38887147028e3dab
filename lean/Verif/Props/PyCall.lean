import Verif.Lemmas.Text
import Verif.Spec.PyCall
import Verif.Spec.Objects
import Verif.Examples.Toy
/-
C114: `repr` of headers and settings is a Python call that names every value.
-/
namespace Bloscpack
open Spec

/-! ### literals -/

/-- one byte of `repr(b)` is a printable character that is neither quote nor backslash, an escape, or two hexadecimal digits -/
theorem reprByte_shape : ∀ q ∈ [34, 39], ∀ n < 256,
    (reprByte q (UInt8.ofNat n) = [Char.ofNat n] ∧ Char.ofNat n ≠ Char.ofNat q ∧ Char.ofNat n ≠ '\\' ∧ ' ' ≤ Char.ofNat n ∧ Char.ofNat n ≤ '~' ∧
      (Char.ofNat n).toNat = n) ∨
    (∃ c ∈ ['\\', '\'', '"', 't', 'n', 'r'], reprByte q (UInt8.ofNat n) = ['\\', c] ∧ escaped c = some (UInt8.ofNat n)) ∨
    (reprByte q (UInt8.ofNat n) = ['\\', 'x', byteHexDigit (n / 16), byteHexDigit (n % 16)] ∧
      hexDigit (byteHexDigit (n / 16)) = some (n / 16) ∧ hexDigit (byteHexDigit (n % 16)) = some (n % 16)) := by
  decide +kernel

theorem bytesBody_x (quote a b : Char) (r : List Char) (x y : Nat) (ha : hexDigit a = some x) (hb : hexDigit b = some y) :
    bytesBody quote ('\\' :: 'x' :: a :: b :: r) = (bytesBody quote r).map (fun z => (UInt8.ofNat (16 * x + y) :: z.1, z.2)) := by
  rw [bytesBody, ha, hb]

theorem bytesBody_esc (quote c : Char) (r : List Char) (v : UInt8) (hc : c ≠ 'x') (hv : escaped c = some v) :
    bytesBody quote ('\\' :: c :: r) = (bytesBody quote r).map (fun z => (v :: z.1, z.2)) := by
  rw [bytesBody, hv]
  intro a b r' h
  exact absurd h hc

theorem bytesBody_plain (quote c : Char) (r : List Char) (h1 : c ≠ quote) (h2 : c ≠ '\\') (h3 : ' ' ≤ c) (h4 : c ≤ '~') :
    bytesBody quote (c :: r) = (bytesBody quote r).map (fun z => (UInt8.ofNat c.toNat :: z.1, z.2)) := by
  rw [bytesBody, if_neg h1, if_pos ⟨h2, h3, h4⟩]
  · intro a b r' h; exact absurd h h2
  · intro a r' h; exact absurd h h2

theorem bytesBody_quote (quote : Char) (r : List Char) (h2 : quote ≠ '\\') : bytesBody quote (quote :: r) = some ([], r) := by
  rw [bytesBody, if_pos rfl]
  · intro a b r' h; exact absurd h h2
  · intro a r' h; exact absurd h h2

theorem bytesBody_repr {q : Nat} (hq : q ∈ [34, 39]) (b : Bytes) (r : List Char) :
    bytesBody (Char.ofNat q) (b.flatMap (reprByte q) ++ Char.ofNat q :: r) = some (b, r) := by
  induction b with
  | nil =>
    refine bytesBody_quote _ _ ?_
    have : ∀ q ∈ [34, 39], Char.ofNat q ≠ '\\' := by decide
    exact this q hq
  | cons x b ih =>
    rw [List.flatMap_cons, List.append_assoc]
    have h := reprByte_shape q hq x.toNat x.toNat_lt
    rw [UInt8.ofNat_toNat] at h
    rcases h with ⟨h, h1, h2, h3, h4, h5⟩ | ⟨c, hc, h, hv⟩ | ⟨h, h1, h2⟩
    · rw [h, List.cons_append, List.nil_append, bytesBody_plain _ _ _ h1 h2 h3 h4, ih, h5, UInt8.ofNat_toNat]; rfl
    · rw [h]
      have hx : c ≠ 'x' := by rintro rfl; revert hc; decide
      show bytesBody _ ('\\' :: c :: _) = _
      rw [bytesBody_esc _ _ _ _ hx hv, List.append_eq, List.nil_append, ih]; rfl
    · rw [h]
      show bytesBody _ ('\\' :: 'x' :: byteHexDigit (x.toNat / 16) :: byteHexDigit (x.toNat % 16) :: _) = _
      rw [bytesBody_x _ _ _ _ _ _ h1 h2, List.append_eq, List.nil_append, ih, Nat.div_add_mod, UInt8.ofNat_toNat]; rfl

theorem strBody_repr (s r : List Char) (hs : Plain s) : strBody (s ++ '\'' :: r) = some (s, r) := by
  induction s with
  | nil => simp [strBody]
  | cons c s ih =>
    obtain ⟨h1, h2, h3, h4⟩ := hs c List.mem_cons_self
    rw [List.cons_append, strBody, if_neg h1, if_pos ⟨h2, h3, h4⟩, ih (fun d hd => hs d (List.mem_cons_of_mem _ hd))]
    rfl

/-- the text does not go on with a digit -/
def NoDigit (r : List Char) : Prop := ∀ c, r.head? = some c → ¬ ('0' ≤ c ∧ c ≤ '9')

theorem isDigit_range {c : Char} (h : c.isDigit = true) : '0' ≤ c ∧ c ≤ '9' := by
  unfold Char.isDigit at h
  simpa [Char.le_def] using h

theorem digits_repr (l r : List Char) (n : Nat) (hl : ∀ c ∈ l, c.isDigit = true) (hr : NoDigit r) :
    digits n (l ++ r) = (l.foldl (fun v c => 10 * v + (c.toNat - 48)) n, r) := by
  induction l generalizing n with
  | nil =>
    cases r with
    | nil => rfl
    | cons c r => rw [List.nil_append, digits, if_neg (hr c rfl)]; rfl
  | cons c l ih =>
    rw [List.cons_append, digits, if_pos (isDigit_range (hl c List.mem_cons_self)), ih _ (fun d hd => hl d (List.mem_cons_of_mem _ hd))]
    rfl

theorem natural_repr (n : Nat) (r : List Char) (hr : NoDigit r) : natural ((toString n).toList ++ r) = some (n, r) := by
  obtain ⟨h1, h2, h3⟩ := decimal_toString n
  have hd := digits_repr (toString n).toList r 0 h2 hr
  rw [show List.foldl (fun v c => 10 * v + (c.toNat - 48)) 0 (toString n).toList = n from h1] at hd
  cases hl : (toString n).toList with
  | nil => exact absurd hl h3
  | cons c l =>
    rw [hl] at hd h2
    rw [List.cons_append] at hd ⊢
    rw [natural, if_pos (isDigit_range (h2 c List.mem_cons_self)), hd]

theorem literal_digit (c : Char) (r : List Char) (h : c.isDigit = true) : literal (c :: r) = (natural (c :: r)).map (fun x => (.int x.1, x.2)) := by
  have h' : ∀ d : Char, d.isDigit = false → c ≠ d := by rintro d hd rfl; rw [h] at hd; cases hd
  unfold literal
  split
  · rename_i e; exact absurd (List.cons.inj e).1 (h' _ (by decide))
  · rename_i e; exact absurd (List.cons.inj e).1 (h' _ (by decide))
  · rename_i e; exact absurd (List.cons.inj e).1 (h' _ (by decide))
  · rename_i e; exact absurd (List.cons.inj e).1 (h' _ (by decide))
  · rename_i e; exact absurd (List.cons.inj e).1 (h' _ (by decide))
  · rename_i e; exact absurd (List.cons.inj e).1 (h' _ (by decide))
  · rfl

theorem literal_repr (v : ObjVal) (r : List Char) (hv : HasLiteral v) (hr : NoDigit r) : literal (v.repr ++ r) = some (v, r) := by
  cases v with
  | int i =>
    show literal ((toString i).toList ++ r) = _
    rw [int_text]
    split
    · rename_i hi
      show (natural ((toString i.natAbs).toList ++ r)).map _ = _
      rw [natural_repr _ _ hr]
      show some (ObjVal.int _, r) = _
      rw [show (-((i.natAbs : Nat) : Int)) = i by omega]
    · rename_i hi
      have hn := natural_repr i.natAbs r hr
      obtain ⟨-, h2, h3⟩ := decimal_toString i.natAbs
      cases hl : (toString i.natAbs).toList with
      | nil => exact absurd hl h3
      | cons c l =>
        rw [hl] at hn h2
        rw [List.cons_append] at hn ⊢
        rw [literal_digit _ _ (h2 c List.mem_cons_self), hn]
        show some (ObjVal.int _, r) = _
        rw [show ((i.natAbs : Nat) : Int) = i by omega]
  | bool b => cases b <;> rfl
  | str s =>
    show literal ('\'' :: ((s ++ ['\'']) ++ r)) = _
    rw [List.append_assoc]
    show (strBody (s ++ '\'' :: r)).map _ = _
    rw [strBody_repr s r hv]; rfl
  | bytes b =>
    show literal (reprBytes b ++ r) = _
    unfold reprBytes
    simp only
    have hs : (if (39 : UInt8) ∈ b ∧ (34 : UInt8) ∉ b then 34 else 39) = 34 ∨ (if (39 : UInt8) ∈ b ∧ (34 : UInt8) ∉ b then 34 else 39) = 39 := by
      split <;> simp
    generalize (if (39 : UInt8) ∈ b ∧ (34 : UInt8) ∉ b then 34 else 39) = q at *
    have e : 'b' :: Char.ofNat q :: (b.flatMap (reprByte q) ++ [Char.ofNat q]) ++ r
        = 'b' :: Char.ofNat q :: (b.flatMap (reprByte q) ++ Char.ofNat q :: r) := by simp
    rw [e]
    have hb := fun h => bytesBody_repr (q := q) h b r
    rcases hs with rfl | rfl
    · show (bytesBody (Char.ofNat 34) _).map _ = _
      rw [hb (by simp)]; rfl
    · show (bytesBody (Char.ofNat 39) _).map _ = _
      rw [hb (by simp)]; rfl
  | other n => exact hv.elim

/-! ### calls -/

theorem takeWhile_name (s : String) (hs : ∀ c ∈ s.toList, nameChar c = true) (c : Char) (r : List Char) (hc : nameChar c = false) :
    (s.toList ++ c :: r).takeWhile nameChar = s.toList ∧ (s.toList ++ c :: r).dropWhile nameChar = c :: r := by
  rw [List.takeWhile_append_of_pos hs, List.dropWhile_append_of_pos hs]
  simp [hc]

/-- the keyword arguments of `repr` -/
def reprArg (o : MapObj) (k : String) : List Char := k.toList ++ "=".toList ++ (o.vars k).repr

theorem arguments_repr (o : MapObj) (ks : List String) (hk : ∀ k ∈ ks, Identifier k ∧ HasLiteral (o.vars k)) (hne : ks ≠ []) (fuel : Nat)
    (hf : ks.length ≤ fuel) :
    arguments fuel (joinText ", ".toList (ks.map (reprArg o)) ++ [')']) = some (ks.map (fun k => (k, o.vars k))) := by
  induction ks generalizing fuel with
  | nil => exact absurd rfl hne
  | cons k ks ih =>
    obtain ⟨hi, hv⟩ := hk k List.mem_cons_self
    match fuel, hf with
    | 0, hf => simp at hf
    | fuel + 1, hf =>
    cases ks with
    | nil =>
      show arguments (fuel + 1) ((k.toList ++ ['='] ++ (o.vars k).repr) ++ [')']) = _
      have e : (k.toList ++ ['='] ++ (o.vars k).repr) ++ [')'] = k.toList ++ '=' :: ((o.vars k).repr ++ [')']) := by simp
      obtain ⟨h1, h2⟩ := takeWhile_name k hi.2 '=' ((o.vars k).repr ++ [')']) (by decide)
      rw [e, arguments, h2, h1]
      simp only
      rw [literal_repr _ _ hv (by intro c hc; cases hc; decide)]
      simp
    | cons k2 ks =>
      have hrest := ih (fun x hx => hk x (List.mem_cons_of_mem _ hx)) (by simp) fuel (by simp at hf ⊢; omega)
      generalize hT : joinText ", ".toList ((k2 :: ks).map (reprArg o)) ++ [')'] = T at hrest
      have e : joinText ", ".toList ((k :: k2 :: ks).map (reprArg o)) ++ [')'] = k.toList ++ '=' :: ((o.vars k).repr ++ ',' :: ' ' :: T) := by
        rw [← hT]
        show ((k.toList ++ ['='] ++ (o.vars k).repr) ++ [',', ' '] ++ joinText ", ".toList ((k2 :: ks).map (reprArg o))) ++ [')'] = _
        simp
      obtain ⟨h1, h2⟩ := takeWhile_name k hi.2 '=' ((o.vars k).repr ++ ',' :: ' ' :: T) (by decide)
      rw [e, arguments, h2, h1]
      simp only
      rw [literal_repr _ _ hv (by intro c hc; cases hc; decide)]
      simp only
      rw [hrest]
      simp

theorem joinText_length (o : MapObj) (ks : List String) : ks.length ≤ (joinText ", ".toList (ks.map (reprArg o))).length := by
  match ks with
  | [] => simp
  | [k] => simp [joinText, reprArg]; omega
  | k :: k2 :: ks =>
    have := joinText_length o (k2 :: ks)
    show (k2 :: ks).length + 1 ≤ (reprArg o k ++ ", ".toList ++ joinText ", ".toList ((k2 :: ks).map (reprArg o))).length
    have h2 : (", ".toList).length = 2 := by decide
    rw [List.length_append, List.length_append, h2]
    omega

/-- C114: `repr` of an object, read as Python, is a call of its class with every attribute and its value as keyword argument, in order. -/
theorem C114_repr (o : MapObj) (hname : Identifier o.cls.name) (hkeys : ∀ k ∈ o.cls.attributes, Identifier k ∧ HasLiteral (o.vars k)) :
    call o.repr = some (o.cls.name, o.cls.attributes.map (fun k => (k, o.vars k))) := by
  have e : o.repr = o.cls.name.toList ++ '(' :: (joinText ", ".toList (o.cls.attributes.map (reprArg o)) ++ [')']) := by
    show o.cls.name.toList ++ ['('] ++ joinText ", ".toList (o.cls.attributes.map (reprArg o)) ++ [')'] = _
    simp
  obtain ⟨h1, h2⟩ := takeWhile_name o.cls.name hname.2 '(' (joinText ", ".toList (o.cls.attributes.map (reprArg o)) ++ [')']) (by decide)
  rw [e]
  unfold call
  rw [h2, h1]
  cases hk : o.cls.attributes with
  | nil => simp [joinText]
  | cons k ks =>
    rw [← hk]
    have hl := joinText_length o o.cls.attributes
    have ha := arguments_repr o o.cls.attributes hkeys (by rw [hk]; simp)
      (o.cls.name.toList ++ '(' :: (joinText ", ".toList (o.cls.attributes.map (reprArg o)) ++ [')'])).length
      (by rw [List.length_append, List.length_cons, List.length_append]; omega)
    have hpos : 0 < (joinText ", ".toList (o.cls.attributes.map (reprArg o))).length :=
      Nat.lt_of_lt_of_le (by rw [hk]; exact Nat.zero_lt_succ _) hl
    split
    · rename_i h
      have := congrArg List.length h
      rw [List.length_cons, List.length_append] at this
      simp only [List.length_cons, List.length_nil] at this; omega
    · rename_i r _ h
      obtain rfl : joinText ", ".toList (o.cls.attributes.map (reprArg o)) ++ [')'] = r := (List.cons.inj h).2
      rw [ha]; simp
    · rename_i h; exact absurd rfl (h _)

theorem plain_checksum {s : String} (h : s ∈ checksumNames) : Plain s.toList := by
  revert s
  unfold checksumNames Plain
  decide

/-- C114 for the header of an archive: evaluating what `repr` gives calls `BloscpackHeader` with the values of the header. -/
theorem C114_header (h : BloscpackHeader) (hc : h.checksum ∈ checksumNames) :
    call h.obj.repr = some ("BloscpackHeader",
      [("format_version", .int h.format_version), ("offsets", .bool h.offsets), ("metadata", .bool h.metadata),
       ("checksum", .str h.checksum.toList), ("typesize", .int h.typesize), ("chunk_size", .int h.chunk_size),
       ("last_chunk", .int h.last_chunk), ("nchunks", .int h.nchunks), ("max_app_chunks", .int h.max_app_chunks)]) := by
  have hids : Identifier BloscpackHeader.cls.name ∧ ∀ k ∈ BloscpackHeader.cls.attributes, Identifier k := by
    unfold Identifier BloscpackHeader.cls; decide
  refine C114_repr h.obj hids.1 (fun k hk => ⟨hids.2 k hk, ?_⟩)
  have hk' : k ∈ BloscpackHeader.cls.attributes := hk
  simp only [BloscpackHeader.cls, List.mem_cons, List.not_mem_nil, or_false] at hk'
  rcases hk' with rfl | rfl | rfl | rfl | rfl | rfl | rfl | rfl | rfl
  all_goals first | exact trivial | exact plain_checksum hc

/-- C114 for a metadata header, as 32 bytes can hold it. -/
theorem C114_metadata_header (h : MetadataHeader) (hok : h.OK) :
    call h.obj.repr = some ("MetadataHeader",
      [("magic_format", .bytes h.magic_format), ("meta_options", .str h.meta_options), ("meta_checksum", .str h.meta_checksum.toList),
       ("meta_codec", .str h.meta_codec.toList), ("meta_level", .int h.meta_level), ("meta_size", .int h.meta_size),
       ("max_meta_size", .int h.max_meta_size), ("meta_comp_size", .int h.meta_comp_size), ("user_codec", .bytes h.user_codec)]) := by
  have hids : Identifier MetadataHeader.cls.name ∧ ∀ k ∈ MetadataHeader.cls.attributes, Identifier k := by
    unfold Identifier MetadataHeader.cls; decide
  have ho : Plain h.meta_options := by
    intro c hc
    rcases hok.2.1.2 _ hc with rfl | rfl <;> decide
  have hs := plain_checksum hok.2.2.1
  have hk : Plain h.meta_codec.toList := by
    have : ∀ c ∈ Spec.codecNames, Plain c.toList := by unfold Spec.codecNames Plain; decide
    exact this _ hok.2.2.2.1
  refine C114_repr h.obj hids.1 (fun k hk' => ⟨hids.2 k hk', ?_⟩)
  have hk' : k ∈ MetadataHeader.cls.attributes := hk'
  simp only [MetadataHeader.cls, List.mem_cons, List.not_mem_nil, or_false] at hk'
  rcases hk' with rfl | rfl | rfl | rfl | rfl | rfl | rfl | rfl | rfl
  all_goals first | exact trivial | exact ho | exact hs | exact hk

/-! ### examples -/

example : Identifier "BloscArgs" ∧ Identifier "max_app_chunks" ∧ ¬ Identifier "a b" ∧ ¬ Identifier "" := by unfold Identifier; decide

example : HasLiteral (.bytes [0, 39, 255]) ∧ HasLiteral (.int (-1)) ∧ HasLiteral (.str "zlib".toList) := by
  refine ⟨trivial, trivial, ?_⟩
  show Plain _
  unfold Plain; decide

/-- a header, its text, and what the text means -/
example :
    let h : BloscpackHeader :=
      { format_version := 3, offsets := true, metadata := false, checksum := "adler32", typesize := 8
        chunk_size := 1048576, last_chunk := 12, nchunks := 2, max_app_chunks := -1 }
    h.checksum ∈ checksumNames ∧
    h.obj.repr = ("BloscpackHeader(format_version=3, offsets=True, metadata=False, checksum='adler32', typesize=8, " ++
      "chunk_size=1048576, last_chunk=12, nchunks=2, max_app_chunks=-1)").toList := by
  decide +kernel

/-- a metadata header -/
example :
    let h : MetadataHeader :=
      { magic_format := [74, 83, 79, 78, 0, 0, 0, 0], meta_options := "00000000".toList, meta_checksum := "adler32", meta_codec := "zlib"
        meta_level := 6, meta_size := 20, max_meta_size := 200, meta_comp_size := 28, user_codec := [0, 0, 0, 0, 0, 0, 0, 0] }
    h.OK ∧ h.obj.repr = ("MetadataHeader(magic_format=b'JSON\\x00\\x00\\x00\\x00', meta_options='00000000', meta_checksum='adler32', " ++
      "meta_codec='zlib', meta_level=6, meta_size=20, max_meta_size=200, meta_comp_size=28, " ++
      "user_codec=b'\\x00\\x00\\x00\\x00\\x00\\x00\\x00\\x00')").toList := by
  refine ⟨?_, by decide +kernel⟩
  unfold MetadataHeader.OK Spec.MetaFieldsOK
  decide

/-- bytes of every kind, and the text of them -/
example : (ObjVal.bytes [74, 0, 9, 10, 13, 31, 32, 92, 34, 126, 127, 255]).repr = "b'J\\x00\\t\\n\\r\\x1f \\\\\"~\\x7f\\xff'".toList ∧
    (ObjVal.bytes [105, 39]).repr = "b\"i'\"".toList ∧ (ObjVal.bytes [34, 39]).repr = "b'\"\\''".toList := by
  decide +kernel

/-- settings -/
example : call (MapObj.repr { cls := BloscArgs.cls, vars := fun k => if k = "cname" then .str "lz4".toList else .int 7 }) =
    some ("BloscArgs", [("typesize", .int 7), ("clevel", .int 7), ("shuffle", .int 7), ("cname", .str "lz4".toList)]) := by
  decide +kernel

/-- the reader tells texts that are no calls from calls -/
example : call "BloscArgs(typesize=, clevel=7)".toList = none ∧ call "BloscArgs".toList = none ∧ call "f()".toList = some ("f", []) ∧
    call "f(a=b'\\x4')".toList = none := by
  decide +kernel

end Bloscpack
