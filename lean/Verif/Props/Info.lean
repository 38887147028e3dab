import Verif.Props.CliAppend
import Verif.Lemmas.Text
/-
C53, C64: what `blpk info` prints.
-/
namespace Bloscpack
variable {μ : Type}

/-! ### specification: the lines -/

/-- Python's `True` and `False` -/
def Spec.pyBool (b : Bool) : String := if b then "True" else "False"

/-- a size as the headers show it: human readable and exact, or -1 for unknown -/
def Spec.shownSize (n : Int) : List Char := if n = -1 then "-1".toList else doublePrettySize n

/-- the lines for a header -/
def Spec.headerLines (h : BloscpackHeader) : List (List Char) :=
  ["BloscpackHeader:".toList,
   s!"    format_version: {h.format_version}".toList,
   s!"    offsets: {Spec.pyBool h.offsets}".toList,
   s!"    metadata: {Spec.pyBool h.metadata}".toList,
   s!"    checksum: '{h.checksum}'".toList,
   s!"    typesize: {h.typesize}".toList,
   "    chunk_size: ".toList ++ Spec.shownSize h.chunk_size,
   "    last_chunk: ".toList ++ Spec.shownSize h.last_chunk,
   s!"    nchunks: {h.nchunks}".toList,
   s!"    max_app_chunks: {h.max_app_chunks}".toList]

/-- the lines for a metadata header -/
def Spec.metaHeaderLines (h : MetadataHeader) : List (List Char) :=
  ["MetadataHeader:".toList,
   "    magic_format: ".toList ++ reprBytes h.magic_format,
   "    meta_options: '".toList ++ h.meta_options ++ "'".toList,
   s!"    meta_checksum: '{h.meta_checksum}'".toList,
   s!"    meta_codec: '{h.meta_codec}'".toList,
   s!"    meta_level: {h.meta_level}".toList,
   "    meta_size: ".toList ++ Spec.shownSize h.meta_size,
   "    max_meta_size: ".toList ++ Spec.shownSize h.max_meta_size,
   "    meta_comp_size: ".toList ++ Spec.shownSize h.meta_comp_size,
   "    user_codec: ".toList ++ reprBytes h.user_codec]

/-- the line for the header of a chunk -/
def Spec.bloscHeaderLine (braces : Bool) (h : BloscHeader) : List Char :=
  if braces then s!"OrderedDict(\{'version': {h.version}, 'versionlz': {h.versionlz}, 'flags': {h.flags}, 'typesize': {h.typesize}, 'nbytes': {h.nbytes}, 'blocksize': {h.blocksize}, 'ctbytes': {h.ctbytes}})".toList
  else s!"OrderedDict([('version', {h.version}), ('versionlz', {h.versionlz}), ('flags', {h.flags}), ('typesize', {h.typesize}), ('nbytes', {h.nbytes}), ('blocksize', {h.blocksize}), ('ctbytes', {h.ctbytes})])".toList

/-- the line for the flags of a chunk -/
def Spec.bloscFlagsLine (braces : Bool) (f : BloscFlags) : List Char :=
  if braces then s!"OrderedDict(\{'byte_shuffle': {Spec.pyBool f.byteShuffle}, 'pure_memcpy': {Spec.pyBool f.pureMemcpy}, 'bit_shuffle': {Spec.pyBool f.bitShuffle}, 'split_blocks': {Spec.pyBool f.splitBlocks}, 'codec': '{f.codec}'})".toList
  else s!"OrderedDict([('byte_shuffle', {Spec.pyBool f.byteShuffle}), ('pure_memcpy', {Spec.pyBool f.pureMemcpy}), ('bit_shuffle', {Spec.pyBool f.bitShuffle}), ('split_blocks', {Spec.pyBool f.splitBlocks}), ('codec', '{f.codec}')])".toList

/-- the lines for the offsets: the first five -/
def Spec.offsetsLines (offsets : List Int) : List (List Char) :=
  if offsets = [] then []
  else ["'offsets':".toList, "[".toList ++ (offsets.take 5).flatMap (fun o => s!"{o},".toList) ++ "...]".toList]

/-- the lines for the metadata, if there is any -/
def Spec.metadataLines (S : Shown μ) : Option μ → Option MetadataHeader → List (List Char)
  | some m, some h => "Metadata:".toList :: messageLines (S.pformat (some m)) ++ Spec.metaHeaderLines h
  | _, _ => []

/-- everything `blpk info` prints, without the prefix -/
def Spec.infoLines (S : Shown μ) (h : BloscpackHeader) (md : Option μ) (mh : Option MetadataHeader) (offsets : List Int)
    (bh : BloscHeader) (f : BloscFlags) : List (List Char) :=
  Spec.headerLines h ++ Spec.offsetsLines offsets ++ Spec.metadataLines S md mh ++
    ["First chunk blosc header:".toList, Spec.bloscHeaderLine S.braces bh,
     "First chunk blosc flags: ".toList, Spec.bloscFlagsLine S.braces f]

/-! ### printing -/

/-- the procedure does nothing but print these lines, as long as the verbosity is a known one -/
def Prints (m : Proc Log Unit) (ls : List (List Char)) : Prop :=
  ∀ s, s.level ∈ verbosityLevels → m s = (.ok (), { s with out := s.out ++ ls.map (fun l => s.pfx ++ [':', ' '] ++ l) })

theorem Prints.normal (msg : List Char) : Prints (normal msg) (messageLines msg) := by
  intro s hs
  unfold Bloscpack.normal verbose
  simp only [bind, Proc.bind, Proc.get, hs, not_true, if_false]
  rw [if_neg (by decide), if_pos]
  · rfl
  · simp [verbosityLevels] at hs
    rcases hs with h | h | h <;> rw [h] <;> decide

theorem Prints.pure : Prints (Proc.pure ()) [] := fun s _ => by simp [Proc.pure]

theorem Prints.bind {m : Proc Log Unit} {f : Unit → Proc Log Unit} {a b : List (List Char)} (hm : Prints m a) (hf : Prints (f ()) b) :
    Prints (m >>= f) (a ++ b) := by
  intro s hs
  rw [Proc.bind_of_ok (hm s hs), hf { s with out := s.out ++ a.map (fun l => s.pfx ++ [':', ' '] ++ l) } hs]
  simp

theorem Prints.line {msg : List Char} (h : OneLine msg) (hne : msg ≠ []) : Prints (Bloscpack.normal msg) [msg] := by
  have := Prints.normal msg
  rwa [messageLines, splitNL_line msg h, List.filter_eq_self.2 (by simpa using hne)] at this

theorem checksum_oneLine {s : String} (h : s ∈ Spec.checksumNames) : OneLine s.toList := by
  have : ∀ s ∈ Spec.checksumNames, '\n' ∉ s.toList := by decide +kernel
  exact this s h

theorem shown_size (bs : List String) (key : String) (n : Int) (hk : key ∈ bs) : shownValue bs key (.int n) = Spec.shownSize n := by
  unfold shownValue Spec.shownSize
  simp only [hk, not_true, false_or, ObjVal.int.injEq]
  split
  · rename_i h; subst h; rfl
  · rfl

theorem varsOf_str {l : List (String × ObjVal)} {P : List Char → Prop} (h : ∀ x ∈ l, ∀ s, x.2 = .str s → P s) (k : String) (s : List Char)
    (hk : varsOf l k = .str s) : P s := by
  induction l with
  | nil => cases hk
  | cons x l ih =>
    obtain ⟨k', v⟩ := x
    unfold varsOf at hk
    split at hk
    · exact h _ List.mem_cons_self s hk
    · exact ih (fun y hy => h y (List.mem_cons_of_mem _ hy)) hk

theorem shown_plain (bs : List String) (key : String) (v : ObjVal) (hk : key ∉ bs) : shownValue bs key v = v.repr := by
  unfold shownValue; rw [if_pos (.inl hk)]

theorem repr_bool (b : Bool) : (ObjVal.bool b).repr = (Spec.pyBool b).toList := by cases b <;> rfl

theorem cons_eq {α : Type} {a b : α} {l m : List α} (h : a = b) (h' : l = m) : a :: l = b :: m := by rw [h, h']

theorem toString_str (s : String) : toString s = s := rfl

theorem repr_int (i : Int) : (ObjVal.int i).repr = (toString i).toList := rfl
theorem repr_str (s : List Char) : (ObjVal.str s).repr = "'".toList ++ (s ++ "'".toList) := rfl

/-- one line of an object -/
theorem obj_line {o : MapObj} {k : String} {t full : List Char} (hs : shownValue o.cls.bytes_attributes k (o.vars k) = t)
    (hf : ("    " ++ k ++ ": ").toList ++ t = full) :
    "    ".toList ++ (k.toList ++ ": ".toList ++ shownValue o.cls.bytes_attributes k (o.vars k)) = full := by
  rw [hs, ← hf]; simp only [List.append_assoc, String.toList_append]

theorem plain_line {o : MapObj} {k : String} {v : ObjVal} (hv : o.vars k = v) (hk : k ∉ o.cls.bytes_attributes) :
    shownValue o.cls.bytes_attributes k (o.vars k) = v.repr := by
  rw [hv, shown_plain _ _ _ hk]

theorem size_line {o : MapObj} {k : String} {n : Int} (hv : o.vars k = .int n) (hk : k ∈ o.cls.bytes_attributes) :
    shownValue o.cls.bytes_attributes k (o.vars k) = Spec.shownSize n := by
  rw [hv, shown_size _ _ _ hk]

theorem int_line {o : MapObj} {k pre : String} {i : Int} (hv : o.vars k = .int i) (hk : k ∉ o.cls.bytes_attributes)
    (hp : "    " ++ k ++ ": " = pre) :
    "    ".toList ++ (k.toList ++ ": ".toList ++ shownValue o.cls.bytes_attributes k (o.vars k)) = (toString pre ++ toString i).toList :=
  obj_line (plain_line hv hk) (by subst hp; simp only [String.toList_append, toString_str, repr_int, List.append_assoc])

theorem bool_line {o : MapObj} {k pre : String} {b : Bool} (hv : o.vars k = .bool b) (hk : k ∉ o.cls.bytes_attributes)
    (hp : "    " ++ k ++ ": " = pre) :
    "    ".toList ++ (k.toList ++ ": ".toList ++ shownValue o.cls.bytes_attributes k (o.vars k)) =
      (toString pre ++ toString (Spec.pyBool b)).toList :=
  obj_line (plain_line hv hk) (by subst hp; simp only [String.toList_append, toString_str, repr_bool, List.append_assoc])

theorem str_line {o : MapObj} {k pre : String} {s : String} (hv : o.vars k = .str s.toList) (hk : k ∉ o.cls.bytes_attributes)
    (hp : "    " ++ k ++ ": " ++ "'" = pre) :
    "    ".toList ++ (k.toList ++ ": ".toList ++ shownValue o.cls.bytes_attributes k (o.vars k)) =
      (toString pre ++ toString s ++ toString "'").toList :=
  obj_line (plain_line hv hk) (by
    subst hp
    simp only [repr_str, String.toList_append, toString_str, List.append_assoc])

theorem chars_line {o : MapObj} {k pre : String} {s : List Char} (hv : o.vars k = .str s) (hk : k ∉ o.cls.bytes_attributes)
    (hp : "    " ++ k ++ ": " ++ "'" = pre) :
    "    ".toList ++ (k.toList ++ ": ".toList ++ shownValue o.cls.bytes_attributes k (o.vars k)) = pre.toList ++ s ++ "'".toList :=
  obj_line (plain_line hv hk) (by
    subst hp
    simp only [repr_str, String.toList_append, List.append_assoc])

theorem bytes_line {o : MapObj} {k pre : String} {b : Bytes} (hv : o.vars k = .bytes b) (hk : k ∉ o.cls.bytes_attributes)
    (hp : "    " ++ k ++ ": " = pre) :
    "    ".toList ++ (k.toList ++ ": ".toList ++ shownValue o.cls.bytes_attributes k (o.vars k)) = pre.toList ++ reprBytes b :=
  obj_line (plain_line hv hk) (by subst hp; rfl)

theorem amount_line {o : MapObj} {k pre : String} {n : Int} (hv : o.vars k = .int n) (hk : k ∈ o.cls.bytes_attributes)
    (hp : "    " ++ k ++ ": " = pre) :
    "    ".toList ++ (k.toList ++ ": ".toList ++ shownValue o.cls.bytes_attributes k (o.vars k)) = pre.toList ++ Spec.shownSize n :=
  obj_line (size_line hv hk) (by subst hp; rfl)

theorem header_lines {h : BloscpackHeader} (hc : h.checksum ∈ Spec.checksumNames) : messageLines h.obj.pformat = Spec.headerLines h := by
  have v1 : h.obj.vars "format_version" = .int h.format_version := by simp [BloscpackHeader.obj, varsOf]
  have v2 : h.obj.vars "offsets" = .bool h.offsets := by simp [BloscpackHeader.obj, varsOf]
  have v3 : h.obj.vars "metadata" = .bool h.metadata := by simp [BloscpackHeader.obj, varsOf]
  have v4 : h.obj.vars "checksum" = .str h.checksum.toList := by simp [BloscpackHeader.obj, varsOf]
  have v5 : h.obj.vars "typesize" = .int h.typesize := by simp [BloscpackHeader.obj, varsOf]
  have v6 : h.obj.vars "chunk_size" = .int h.chunk_size := by simp [BloscpackHeader.obj, varsOf]
  have v7 : h.obj.vars "last_chunk" = .int h.last_chunk := by simp [BloscpackHeader.obj, varsOf]
  have v8 : h.obj.vars "nchunks" = .int h.nchunks := by simp [BloscpackHeader.obj, varsOf]
  have v9 : h.obj.vars "max_app_chunks" = .int h.max_app_chunks := by simp [BloscpackHeader.obj, varsOf]
  rw [pformat_lines h.obj (show '\n' ∉ "BloscpackHeader".toList by decide)
    (show ∀ k ∈ BloscpackHeader.cls.attributes, '\n' ∉ k.toList by decide +kernel) (show BloscpackHeader.cls.attributes ≠ [] by decide)]
  · rw [show h.obj.iter = ["format_version", "offsets", "metadata", "checksum", "typesize", "chunk_size", "last_chunk", "nchunks", "max_app_chunks"] from rfl]
    simp only [List.map_cons, List.map_nil]
    unfold Spec.headerLines
    refine cons_eq ?_ (cons_eq (int_line v1 (show "format_version" ∉ BloscpackHeader.cls.bytes_attributes by decide) (by decide)) (cons_eq (bool_line v2 (show "offsets" ∉ BloscpackHeader.cls.bytes_attributes by decide) (by decide)) (cons_eq (bool_line v3 (show "metadata" ∉ BloscpackHeader.cls.bytes_attributes by decide) (by decide)) (cons_eq (str_line v4 (show "checksum" ∉ BloscpackHeader.cls.bytes_attributes by decide) (by decide)) (cons_eq (int_line v5 (show "typesize" ∉ BloscpackHeader.cls.bytes_attributes by decide) (by decide)) (cons_eq (amount_line v6 (show "chunk_size" ∈ BloscpackHeader.cls.bytes_attributes by decide) (by decide)) (cons_eq (amount_line v7 (show "last_chunk" ∈ BloscpackHeader.cls.bytes_attributes by decide) (by decide)) (cons_eq (int_line v8 (show "nchunks" ∉ BloscpackHeader.cls.bytes_attributes by decide) (by decide)) (cons_eq (int_line v9 (show "max_app_chunks" ∉ BloscpackHeader.cls.bytes_attributes by decide) (by decide)) rfl)))))))))
    exact (show "BloscpackHeader".toList ++ [':'] = "BloscpackHeader:".toList by decide)
  · intro k s hk
    refine varsOf_str (P := OneLine) ?_ k s hk
    simp only [List.mem_cons, List.not_mem_nil, or_false]
    rintro x (rfl | rfl | rfl | rfl | rfl | rfl | rfl | rfl | rfl) s hs <;> cases hs
    exact checksum_oneLine hc

theorem metaHeader_lines {h : MetadataHeader} (ho : OneLine h.meta_options) (hc : h.meta_checksum ∈ Spec.checksumNames)
    (hk' : OneLine h.meta_codec.toList) : messageLines h.obj.pformat = Spec.metaHeaderLines h := by
  have v1 : h.obj.vars "magic_format" = .bytes h.magic_format := by simp [MetadataHeader.obj, varsOf]
  have v2 : h.obj.vars "meta_options" = .str h.meta_options := by simp [MetadataHeader.obj, varsOf]
  have v3 : h.obj.vars "meta_checksum" = .str h.meta_checksum.toList := by simp [MetadataHeader.obj, varsOf]
  have v4 : h.obj.vars "meta_codec" = .str h.meta_codec.toList := by simp [MetadataHeader.obj, varsOf]
  have v5 : h.obj.vars "meta_level" = .int h.meta_level := by simp [MetadataHeader.obj, varsOf]
  have v6 : h.obj.vars "meta_size" = .int h.meta_size := by simp [MetadataHeader.obj, varsOf]
  have v7 : h.obj.vars "max_meta_size" = .int h.max_meta_size := by simp [MetadataHeader.obj, varsOf]
  have v8 : h.obj.vars "meta_comp_size" = .int h.meta_comp_size := by simp [MetadataHeader.obj, varsOf]
  have v9 : h.obj.vars "user_codec" = .bytes h.user_codec := by simp [MetadataHeader.obj, varsOf]
  rw [pformat_lines h.obj (show '\n' ∉ "MetadataHeader".toList by decide)
    (show ∀ k ∈ MetadataHeader.cls.attributes, '\n' ∉ k.toList by decide +kernel) (show MetadataHeader.cls.attributes ≠ [] by decide)]
  · rw [show h.obj.iter = ["magic_format", "meta_options", "meta_checksum", "meta_codec", "meta_level", "meta_size", "max_meta_size", "meta_comp_size", "user_codec"] from rfl]
    simp only [List.map_cons, List.map_nil]
    unfold Spec.metaHeaderLines
    refine cons_eq ?_ (cons_eq (bytes_line v1 (show "magic_format" ∉ MetadataHeader.cls.bytes_attributes by decide) (by decide)) (cons_eq (chars_line v2 (show "meta_options" ∉ MetadataHeader.cls.bytes_attributes by decide) (by decide)) (cons_eq (str_line v3 (show "meta_checksum" ∉ MetadataHeader.cls.bytes_attributes by decide) (by decide)) (cons_eq (str_line v4 (show "meta_codec" ∉ MetadataHeader.cls.bytes_attributes by decide) (by decide)) (cons_eq (int_line v5 (show "meta_level" ∉ MetadataHeader.cls.bytes_attributes by decide) (by decide)) (cons_eq (amount_line v6 (show "meta_size" ∈ MetadataHeader.cls.bytes_attributes by decide) (by decide)) (cons_eq (amount_line v7 (show "max_meta_size" ∈ MetadataHeader.cls.bytes_attributes by decide) (by decide)) (cons_eq (amount_line v8 (show "meta_comp_size" ∈ MetadataHeader.cls.bytes_attributes by decide) (by decide)) (cons_eq (bytes_line v9 (show "user_codec" ∉ MetadataHeader.cls.bytes_attributes by decide) (by decide)) rfl)))))))))
    exact (show "MetadataHeader".toList ++ [':'] = "MetadataHeader:".toList by decide)
  · intro k s hk
    refine varsOf_str (P := OneLine) ?_ k s hk
    simp only [List.mem_cons, List.not_mem_nil, or_false]
    rintro x (rfl | rfl | rfl | rfl | rfl | rfl | rfl | rfl | rfl) s hs <;> cases hs
    · exact ho
    · exact checksum_oneLine hc
    · exact hk'

theorem bloscHeader_line (braces : Bool) (h : BloscHeader) : orderedDictText braces h.items = Spec.bloscHeaderLine braces h := by
  unfold orderedDictText Spec.bloscHeaderLine BloscHeader.items
  simp only [List.map_cons, List.map_nil, joinText, repr_int, repr_str, repr_bool, String.toList_append, toString_str, List.append_assoc,
    show ∀ l : List Char, '(' :: l = "(".toList ++ l from fun _ => rfl, show [')'] = ")".toList from rfl,
    show "OrderedDict({'version': ".toList = "OrderedDict({".toList ++ ("'".toList ++ ("version".toList ++ ("'".toList ++ (": ".toList)))) from by decide,
    show ", 'versionlz': ".toList = ", ".toList ++ ("'".toList ++ ("versionlz".toList ++ ("'".toList ++ (": ".toList)))) from by decide,
    show ", 'flags': ".toList = ", ".toList ++ ("'".toList ++ ("flags".toList ++ ("'".toList ++ (": ".toList)))) from by decide,
    show ", 'typesize': ".toList = ", ".toList ++ ("'".toList ++ ("typesize".toList ++ ("'".toList ++ (": ".toList)))) from by decide,
    show ", 'nbytes': ".toList = ", ".toList ++ ("'".toList ++ ("nbytes".toList ++ ("'".toList ++ (": ".toList)))) from by decide,
    show ", 'blocksize': ".toList = ", ".toList ++ ("'".toList ++ ("blocksize".toList ++ ("'".toList ++ (": ".toList)))) from by decide,
    show ", 'ctbytes': ".toList = ", ".toList ++ ("'".toList ++ ("ctbytes".toList ++ ("'".toList ++ (": ".toList)))) from by decide,
    show "OrderedDict([('version', ".toList = "OrderedDict([".toList ++ ("(".toList ++ ("'".toList ++ ("version".toList ++ ("'".toList ++ (", ".toList))))) from by decide,
    show "), ('versionlz', ".toList = ")".toList ++ (", ".toList ++ ("(".toList ++ ("'".toList ++ ("versionlz".toList ++ ("'".toList ++ (", ".toList)))))) from by decide,
    show "), ('flags', ".toList = ")".toList ++ (", ".toList ++ ("(".toList ++ ("'".toList ++ ("flags".toList ++ ("'".toList ++ (", ".toList)))))) from by decide,
    show "), ('typesize', ".toList = ")".toList ++ (", ".toList ++ ("(".toList ++ ("'".toList ++ ("typesize".toList ++ ("'".toList ++ (", ".toList)))))) from by decide,
    show "), ('nbytes', ".toList = ")".toList ++ (", ".toList ++ ("(".toList ++ ("'".toList ++ ("nbytes".toList ++ ("'".toList ++ (", ".toList)))))) from by decide,
    show "), ('blocksize', ".toList = ")".toList ++ (", ".toList ++ ("(".toList ++ ("'".toList ++ ("blocksize".toList ++ ("'".toList ++ (", ".toList)))))) from by decide,
    show "), ('ctbytes', ".toList = ")".toList ++ (", ".toList ++ ("(".toList ++ ("'".toList ++ ("ctbytes".toList ++ ("'".toList ++ (", ".toList)))))) from by decide,
    show ")])".toList = ")".toList ++ ("])".toList) from by decide]

theorem bloscFlags_line (braces : Bool) (h : BloscFlags) : orderedDictText braces h.items = Spec.bloscFlagsLine braces h := by
  unfold orderedDictText Spec.bloscFlagsLine BloscFlags.items
  simp only [List.map_cons, List.map_nil, joinText, repr_int, repr_str, repr_bool, String.toList_append, toString_str, List.append_assoc,
    show ∀ l : List Char, '(' :: l = "(".toList ++ l from fun _ => rfl, show [')'] = ")".toList from rfl,
    show "OrderedDict({'byte_shuffle': ".toList = "OrderedDict({".toList ++ ("'".toList ++ ("byte_shuffle".toList ++ ("'".toList ++ (": ".toList)))) from by decide,
    show ", 'pure_memcpy': ".toList = ", ".toList ++ ("'".toList ++ ("pure_memcpy".toList ++ ("'".toList ++ (": ".toList)))) from by decide,
    show ", 'bit_shuffle': ".toList = ", ".toList ++ ("'".toList ++ ("bit_shuffle".toList ++ ("'".toList ++ (": ".toList)))) from by decide,
    show ", 'split_blocks': ".toList = ", ".toList ++ ("'".toList ++ ("split_blocks".toList ++ ("'".toList ++ (": ".toList)))) from by decide,
    show ", 'codec': '".toList = ", ".toList ++ ("'".toList ++ ("codec".toList ++ ("'".toList ++ (": ".toList ++ ("'".toList))))) from by decide,
    show "'})".toList = "'".toList ++ ("})".toList) from by decide,
    show "OrderedDict([('byte_shuffle', ".toList = "OrderedDict([".toList ++ ("(".toList ++ ("'".toList ++ ("byte_shuffle".toList ++ ("'".toList ++ (", ".toList))))) from by decide,
    show "), ('pure_memcpy', ".toList = ")".toList ++ (", ".toList ++ ("(".toList ++ ("'".toList ++ ("pure_memcpy".toList ++ ("'".toList ++ (", ".toList)))))) from by decide,
    show "), ('bit_shuffle', ".toList = ")".toList ++ (", ".toList ++ ("(".toList ++ ("'".toList ++ ("bit_shuffle".toList ++ ("'".toList ++ (", ".toList)))))) from by decide,
    show "), ('split_blocks', ".toList = ")".toList ++ (", ".toList ++ ("(".toList ++ ("'".toList ++ ("split_blocks".toList ++ ("'".toList ++ (", ".toList)))))) from by decide,
    show "), ('codec', '".toList = ")".toList ++ (", ".toList ++ ("(".toList ++ ("'".toList ++ ("codec".toList ++ ("'".toList ++ (", ".toList ++ ("'".toList))))))) from by decide,
    show "')])".toList = "'".toList ++ (")".toList ++ ("])".toList)) from by decide]

theorem offsets_text (os : List Int) (h : os ≠ []) :
    offsetsText os = "[".toList ++ (os.take 5).flatMap (fun o => s!"{o},".toList) ++ "...]".toList := by
  have key : ∀ l : List Int, l ≠ [] → joinText [','] (l.map (fun o => (toString o).toList)) ++ [','] = l.flatMap (fun o => (toString o ++ toString ",").toList) := by
    intro l
    induction l with
    | nil => intro h; exact absurd rfl h
    | cons o l ih =>
      intro _
      cases l with
      | nil => simp [joinText, toString_str, String.toList_append]
      | cons p l =>
        have := ih (by simp)
        simp only [List.map_cons, joinText, List.flatMap_cons, List.append_assoc] at this ⊢
        rw [this]
        simp [toString_str, String.toList_append]
  have hk := key (os.take 5) (by cases os <;> simp at h ⊢)
  unfold offsetsText
  rw [show ",...]".toList = [','] ++ "...]".toList from by decide, ← List.append_assoc, hk]
  rfl

theorem pyBool_oneLine (b : Bool) : OneLine (Spec.pyBool b).toList := by
  cases b <;> (unfold OneLine; decide)

theorem bloscHeader_oneLine (braces : Bool) (h : BloscHeader) : OneLine (Spec.bloscHeaderLine braces h) ∧ Spec.bloscHeaderLine braces h ≠ [] := by
  have i : ∀ n : Int, '\n' ∉ n.repr.toList := int_oneLine
  constructor
  · unfold Spec.bloscHeaderLine OneLine
    split <;> simp [String.toList_append, toString_str, i]
  · unfold Spec.bloscHeaderLine
    split <;> simp [String.toList_append, toString_str]

theorem bloscFlags_oneLine (braces : Bool) (f : BloscFlags) (hf : OneLine f.codec.toList) :
    OneLine (Spec.bloscFlagsLine braces f) ∧ Spec.bloscFlagsLine braces f ≠ [] := by
  have i := pyBool_oneLine
  unfold OneLine at i hf
  constructor
  · unfold Spec.bloscFlagsLine OneLine
    split <;> simp [String.toList_append, toString_str, i, hf]
  · unfold Spec.bloscFlagsLine
    split <;> simp [String.toList_append, toString_str]

theorem offsets_oneLine (os : List Int) : OneLine ("[".toList ++ (os.take 5).flatMap (fun o => s!"{o},".toList) ++ "...]".toList) := by
  have i : ∀ n : Int, '\n' ∉ n.repr.toList := int_oneLine
  unfold OneLine
  simp only [List.mem_append, List.mem_flatMap, not_or]
  refine ⟨⟨by decide, ?_⟩, by decide⟩
  rintro ⟨o, -, h⟩
  simp [String.toList_append, toString_str, i] at h

theorem codec_oneLine {n : Nat} {fl : BloscFlags} (hn : n < 256) (h : decodeBloscFlags n = .ok fl) : OneLine fl.codec.toList := by
  rw [blosc_flags_table n hn] at h
  split at h
  · rename_i c hc
    cases h
    have : ∀ c ∈ ["blosclz", "lz4", "snappy", "zlib", "zstd"], '\n' ∉ c.toList := by decide +kernel
    exact this c (List.mem_of_getElem? hc)
  · cases h

theorem MetadataHeader.OK.printed {h : MetadataHeader} (hok : h.OK) : messageLines h.obj.pformat = Spec.metaHeaderLines h := by
  refine metaHeader_lines ?_ hok.2.2.1 ?_
  · intro hc
    rcases hok.2.1.2 _ hc with h | h <;> exact absurd h (by decide)
  · have : ∀ c ∈ Spec.codecNames, '\n' ∉ c.toList := by decide +kernel
    exact this _ hok.2.2.2.1

theorem prints_infoPrint (S : Shown μ) (r : InfoRead μ) (fl : BloscFlags) (hc : r.header.checksum ∈ Spec.checksumNames)
    (hm : ∀ m, r.metadata = some m → ∃ h, r.metadata_header = some h ∧ h.OK) (hx : r.blosc_header.flags.toNat < 256)
    (hfl : decodeBloscFlags r.blosc_header.flags.toNat = .ok fl) :
    Prints (infoPrint S r) (Spec.infoLines S r.header r.metadata r.metadata_header r.offsets r.blosc_header fl) := by
  have p1 : Prints (normal r.header.obj.pformat) (Spec.headerLines r.header) := by
    rw [← header_lines hc]; exact Prints.normal _
  have p2 : Prints (if r.offsets ≠ [] then do
      normal "'offsets':".toList
      normal (offsetsText r.offsets)
    else Proc.pure () : Proc Log Unit) (Spec.offsetsLines r.offsets) := by
    unfold Spec.offsetsLines
    by_cases ho : r.offsets = []
    · rw [if_neg (by simpa using ho), if_pos ho]; exact Prints.pure
    · rw [if_pos ho, if_neg ho, offsets_text _ ho]
      exact Prints.bind (a := ["'offsets':".toList])
        (Prints.line (show '\n' ∉ "'offsets':".toList by decide) (by decide))
        (Prints.line (offsets_oneLine _) (by simp))
  have p3 : Prints (match r.metadata with
    | none => Proc.pure ()
    | some m => do
      logMetadata S (some m)
      match r.metadata_header with
      | none => Proc.raise .attributeError
      | some h => normal h.obj.pformat : Proc Log Unit) (Spec.metadataLines S r.metadata r.metadata_header) := by
    cases hmd : r.metadata with
    | none => cases r.metadata_header <;> exact Prints.pure
    | some m =>
      obtain ⟨h, h1, h2⟩ := hm m hmd
      rw [h1]
      show Prints _ (("Metadata:".toList :: messageLines (S.pformat (some m))) ++ Spec.metaHeaderLines h)
      refine Prints.bind ?_ ?_
      · exact Prints.bind (a := ["Metadata:".toList])
          (Prints.line (show '\n' ∉ "Metadata:".toList by decide) (by decide)) (Prints.normal _)
      · rw [← h2.printed]; exact Prints.normal _
  have p4 : Prints (do
      normal "First chunk blosc header:".toList
      normal (orderedDictText S.braces r.blosc_header.items)
      normal "First chunk blosc flags: ".toList
      let flags ← Proc.ofExcept (decodeBloscFlags r.blosc_header.flags.toNat)
      normal (orderedDictText S.braces flags.items)) ["First chunk blosc header:".toList, Spec.bloscHeaderLine S.braces r.blosc_header,
        "First chunk blosc flags: ".toList, Spec.bloscFlagsLine S.braces fl] := by
    refine Prints.bind (a := ["First chunk blosc header:".toList])
      (Prints.line (show '\n' ∉ "First chunk blosc header:".toList by decide) (by decide)) ?_
    rw [bloscHeader_line]
    refine Prints.bind (a := [Spec.bloscHeaderLine S.braces r.blosc_header])
      (Prints.line (bloscHeader_oneLine _ _).1 (bloscHeader_oneLine _ _).2) ?_
    refine Prints.bind (a := ["First chunk blosc flags: ".toList])
      (Prints.line (show '\n' ∉ "First chunk blosc flags: ".toList by decide) (by decide)) ?_
    intro s hs
    rw [Proc.bind_of_ok (Proc.ofExcept_apply _ _ |>.trans (by rw [hfl])), bloscFlags_line]
    have hcl := codec_oneLine hx hfl
    exact Prints.line (bloscFlags_oneLine _ _ hcl).1 (bloscFlags_oneLine _ _ hcl).2 s hs
  unfold infoPrint Spec.infoLines
  rw [List.append_assoc, List.append_assoc]
  exact Prints.bind p1 (Prints.bind p2 (Prints.bind p3 p4))

/-! ### C64 -/

/-- the codec numbered in the flags of a chunk (blosc.h) -/
def Spec.chunkCodec (n : Nat) : String := (["blosclz", "lz4", "snappy", "zlib", "zstd"][n]?).getD ""

/-- the flags of a chunk: bits 0, 1, 2, 4 and the upper three bits -/
def Spec.chunkFlags (x : UInt8) : BloscFlags :=
  ⟨x.toNat.testBit 0, x.toNat.testBit 1, x.toNat.testBit 2, x.toNat.testBit 4, Spec.chunkCodec (x.toNat / 32)⟩

/-- the offsets of a file, if it has any: the positions of its chunks -/
def Spec.fileOffsets (E : Env μ) (F : File μ) : List Int :=
  if F.header.offsets then Spec.positions (F.impl E).function (F.front E).length (F.chunks.map (·.1)) else []

/-- what is read from a file, given the header of its first chunk -/
def infoOf (E : Env μ) (F : File μ) (bh : BloscHeader) : InfoRead μ :=
  { header := F.header, metadata := F.metadata, metadata_header := F.sec.map (·.header), offsets := Spec.fileOffsets E F, blosc_header := bh }

/-- C64: `blpk info` on any conforming file prints exactly the fields stored in it: the header, the positions of the first chunks,
the metadata and its header, and the header and flags of the first chunk. Without `-v` and `-d` it prints nothing else; it changes nothing and ends
normally. -/
theorem C64_info (E : Env μ) (L : E.Laws) (S : Shown μ) (prog : List Char) (args : CliArgs) (fs : FS) (hcmd : Spec.IsInfo args)
    (F : File μ) (hF : F.Conforming E) (hfile : fs.files args.file_ = some (F.bytes E))
    (version versionlz flags typesize : UInt8) (nbytes blocksize ctbytes : Int) (rest : Bytes)
    (h1 : 0 ≤ nbytes ∧ nbytes < 2 ^ 32) (h2 : 0 ≤ blocksize ∧ blocksize < 2 ^ 32) (h3 : 0 ≤ ctbytes ∧ ctbytes < 2 ^ 32)
    (hfirst : (F.chunks.map (·.1)).head? = some ([version, versionlz, flags, typesize] ++ Spec.leBytes 4 nbytes ++
      Spec.leBytes 4 blocksize ++ Spec.leBytes 4 ctbytes ++ rest))
    (hcodec : flags.toNat / 32 ≤ 4) :
    (blpk E S prog args fs).1 = .ok () ∧ (blpk E S prog args fs).2.fs = fs ∧
    Spec.Printed args (blpk E S prog args fs).2.log.out
      ((Spec.infoLines S F.header F.metadata (F.sec.map (·.header)) (Spec.fileOffsets E F)
        ⟨version.toNat, versionlz.toNat, flags.toNat, typesize.toNat, nbytes, blocksize, ctbytes⟩
        (Spec.chunkFlags flags)).map (fun l => prog ++ ": ".toList ++ l)) := by
  obtain ⟨os, hb, ho1, ho2⟩ := readBeginning_file L hF.toPre (F.body E ++ F.junk) []
  have hos : os = Spec.fileOffsets E F := by
    unfold Spec.fileOffsets
    cases ho : F.header.offsets with
    | false => rw [ho2 ho]; rfl
    | true =>
      have := ho1 ho
      rw [hF.decode_table ho] at this
      rw [if_pos rfl]
      exact (Except.ok.inj this).symm
  subst hos
  obtain ⟨hl1, hl2, -, -⟩ := File.lookup hF.toPre
  obtain ⟨p, t, hp⟩ : ∃ p t, F.chunks = p :: t := by
    cases hc : F.chunks with
    | nil => rw [hc] at hfirst; cases hfirst
    | cons p t => exact ⟨p, t, rfl⟩
  have hp1 : p.1 = [version, versionlz, flags, typesize] ++ Spec.leBytes 4 nbytes ++ Spec.leBytes 4 blocksize ++
      Spec.leBytes 4 ctbytes ++ rest := by
    rw [hp] at hfirst
    exact Option.some.inj hfirst
  have hpm : p ∈ F.chunks := by rw [hp]; exact List.mem_cons_self
  have hfr := framed_of_decompress L (hF.chunks_ok p hpm)
  have hbody : F.body E ++ F.junk = p.1 ++ (F.impl E).function p.1 ++ (Spec.records (F.impl E).function (t.map (·.1)) ++ F.junk) := by
    simp [File.body, hp, Spec.records]
  obtain ⟨bh, hd, -, hread⟩ := readChunk_general (F.impl E) (F.front E) (F.body E ++ F.junk) [] (by
    rw [hbody]; have := hfr.1; simp; omega)
  have h16 : (F.body E ++ F.junk).take 16 = [version, versionlz, flags, typesize] ++ Spec.leBytes 4 nbytes ++ Spec.leBytes 4 blocksize ++
      Spec.leBytes 4 ctbytes ++ [] := by
    have e1 := leBytes_length 4 nbytes
    have e2 := leBytes_length 4 blocksize
    have e3 := leBytes_length 4 ctbytes
    rw [hbody, hp1, List.append_nil, List.append_assoc, List.append_assoc, List.take_left']
    simp [e1, e2, e3]
  rw [h16, C50_blosc_header _ _ _ _ _ _ _ _ h1 h2 h3] at hd
  have hd := (Except.ok.inj hd).symm
  subst hd
  have hfl : decodeBloscFlags (flags.toNat : Int).toNat = .ok (Spec.chunkFlags flags) := by
    rw [Int.toNat_natCast, C50_blosc_flags]
    unfold Spec.chunkFlags Spec.chunkCodec
    have : flags.toNat / 32 < ["blosclz", "lz4", "snappy", "zlib", "zstd"].length := by simp; omega
    rw [List.getElem?_eq_getElem this]
    rfl
  have hr : (infoRead E { data := F.bytes E }).1 = .ok (infoOf E F ⟨version.toNat, versionlz.toNat, flags.toNat, typesize.toNat, nbytes, blocksize, ctbytes⟩) := by
    have hb' : readBeginning E { data := F.bytes E } = (.ok (F.header, F.metadata, F.sec.map (·.header), Spec.fileOffsets E F), Z (F.front E) (F.body E ++ F.junk) []) := hb
    unfold infoRead
    rw [Proc.bind_of_ok hb', Proc.bind_of_ok (Proc.ofExcept_apply _ _ |>.trans (by rw [hl1]))]
    simp only at hread
    split at hread <;> (rw [Proc.bind_of_ok hread]; rfl)
  have hpr := prints_infoPrint S (infoOf E F ⟨version.toNat, versionlz.toNat, flags.toNat, typesize.toNat, nbytes, blocksize, ctbytes⟩)
    (Spec.chunkFlags flags) hF.ok.2.1 (by
      intro m (hm : F.metadata = some m)
      show ∃ h, F.sec.map (·.header) = some h ∧ h.OK
      cases hs : F.sec with
      | none => rw [show F.metadata = none by simp [File.metadata, hs]] at hm; cases hm
      | some s => exact ⟨s.header, rfl, (hF.sec_ok s hs).ok⟩) (by
      have := flags.toNat_lt
      show (flags.toNat : Int).toNat < 256
      omega) hfl (startWorld prog args fs).log (startWorld_level prog args fs)
  have hlog : ∀ w : World, w = startWorld prog args fs → infoHandler S (infoRead E { data := F.bytes E }).1 w =
      ((infoPrint S (infoOf E F ⟨version.toNat, versionlz.toNat, flags.toNat, typesize.toNat, nbytes, blocksize, ctbytes⟩) w.log).1,
        { w with log := (infoPrint S (infoOf E F ⟨version.toNat, versionlz.toNat, flags.toNat, typesize.toNat, nbytes, blocksize, ctbytes⟩) w.log).2 }) := by
    intro w _
    rw [hr]
    rfl
  have hrun := congrFun (cliMain_info E S hcmd) (startWorld prog args fs)
  rw [cliInfo_eq E S args (startWorld prog args fs) _ hfile, hlog _ rfl, hpr] at hrun
  rw [blpk_result, blpk_fs, hrun]
  exact ⟨rfl, rfl, blpk_printed E S prog args fs (by rw [hrun]; rfl)⟩

/-- every buffer of at least 16 bytes starts with the documented fields -/
theorem chunk_parts (c : Bytes) (h : 16 ≤ c.length) : ∃ (v vlz fl ts : UInt8) (nb bs ct : Int) (rest : Bytes),
    c = [v, vlz, fl, ts] ++ Spec.leBytes 4 nb ++ Spec.leBytes 4 bs ++ Spec.leBytes 4 ct ++ rest ∧ (0 ≤ nb ∧ nb < 2 ^ 32) ∧
    (0 ≤ bs ∧ bs < 2 ^ 32) ∧ (0 ≤ ct ∧ ct < 2 ^ 32) ∧ ct = leDecode (slice c 12 16) := by
  obtain ⟨bh, hd⟩ := (C50_blosc_header_total c).2 h
  have hu : ∀ i, i + 4 ≤ 16 → ∃ x : Int, (0 ≤ x ∧ x < 2 ^ 32) ∧ (c.drop i).take 4 = Spec.leBytes 4 x ∧ x = leDecode (slice c i (i + 4)) := by
    intro i hi
    have h4 : (slice c i (i + 4)).length = 4 := by rw [slice]; simp; omega
    have : decodeUInt32 (slice c i (i + 4)) = .ok (leDecode (slice c i (i + 4))) := if_pos h4
    have h5 := decodeUInt32_iff.1 this
    refine ⟨_, ⟨h5.1, by have := h5.2.1; omega⟩, ?_, rfl⟩
    rw [← h5.2.2, slice, Nat.add_sub_cancel_left]
  obtain ⟨nb, hnb, e1, -⟩ := hu 4 (by omega)
  obtain ⟨bs, hbs, e2, -⟩ := hu 8 (by omega)
  obtain ⟨ct, hct, e3, e4⟩ := hu 12 (by omega)
  match c, h with
  | v :: vlz :: fl :: ts :: rest, h =>
    refine ⟨v, vlz, fl, ts, nb, bs, ct, rest.drop 12, ?_, hnb, hbs, hct, e4⟩
    rw [← e1, ← e2, ← e3]
    simp only [List.cons_append, List.nil_append, List.drop_succ_cons, List.drop_zero]
    have : rest = rest.take 4 ++ ((rest.drop 4).take 4 ++ ((rest.drop 8).take 4 ++ rest.drop 12)) := by
      conv => lhs; rw [← List.take_append_drop 4 rest, ← List.take_append_drop 4 (rest.drop 4), List.drop_drop,
        ← List.take_append_drop 4 (rest.drop (4 + 4)), List.drop_drop]
    conv => lhs; rw [this]
    simp only [List.append_assoc]

theorem File.Conforming.total_length {E : Env μ} {F : File μ} (hF : F.Conforming E) :
    (F.data.length : Int) = (F.header.nchunks - 1) * F.header.chunk_size + F.header.last_chunk := by
  obtain ⟨init, p, h1, h2, h3⟩ := hF.lengths
  have key : ∀ l : List (Bytes × Bytes), (∀ q ∈ l, (q.2.length : Int) = F.header.chunk_size) →
      (((l.map (·.2)).flatten.length : Nat) : Int) = l.length * F.header.chunk_size := by
    intro l
    induction l with
    | nil => intro _; simp
    | cons q l ih =>
      intro h
      have e1 := ih (fun x hx => h x (List.mem_cons_of_mem _ hx))
      have e2 := h q List.mem_cons_self
      rw [List.map_cons, List.flatten_cons, List.length_append, List.length_cons, Int.natCast_add, e1, e2, Int.natCast_add, Int.add_mul]
      omega
  rw [File.data, h1, hF.nchunks, h1, List.map_append, List.flatten_append, List.length_append, Int.natCast_add, key init h2]
  simp only [List.map_cons, List.map_nil, List.flatten_cons, List.flatten_nil, List.append_nil, h3, List.length_append, List.length_cons,
    List.length_nil]
  have : (((init.length + (0 + 1) : Nat) : Int) - 1) = init.length := by omega
  rw [this]

/-- C64: what `blpk info` prints for a packed file: the settings it was packed with, and chunk sizes that add up to the length of
the data. Hypothesis: blosc stores one of the five codecs it documents in the flags of a chunk. -/
theorem C64_info_packed (E : Env μ) (L : E.Laws) (S : Shown μ) (prog : List Char) (args : CliArgs) (fs : FS)
    (hcodecs : ∀ d a c, E.compress d a = .ok c → ∀ x, c[2]? = some x → x.toNat / 32 ≤ 4)
    (hcmd : Spec.IsInfo args) (data : Bytes) (cs : ChunkSizeArg) (md : Option μ) (a : BloscArgs) (b : BloscpackArgs)
    (m : MetadataArgs) (out : Bytes) (h : packBytesToBytes E data cs md a b m = .ok out) (hfile : fs.files args.file_ = some out) :
    ∃ (header : BloscpackHeader) (mh : Option MetadataHeader) (offsets : List Int) (bh : BloscHeader) (x : UInt8),
      (blpk E S prog args fs).1 = .ok () ∧
      Spec.Printed args (blpk E S prog args fs).2.log.out
        ((Spec.infoLines S header md mh offsets bh (Spec.chunkFlags x)).map (fun l => prog ++ ": ".toList ++ l)) ∧
      header.format_version = 3 ∧ header.offsets = b.offsets ∧ header.metadata = md.isSome ∧ header.checksum = b.checksum ∧
      header.typesize = a.typesize ∧ (data.length : Int) = (header.nchunks - 1) * header.chunk_size + header.last_chunk ∧
      mh.isSome = md.isSome ∧ (offsets.length : Int) = (if b.offsets then header.nchunks else 0) ∧ bh.flags = x.toNat ∧
      (∀ o, offsets.head? = some o → ∃ first d, E.compress d a = .ok first ∧ (out.drop o.toNat).take first.length = first ∧
        first[2]? = some x ∧ bh.ctbytes = first.length) := by
  obtain ⟨F, n, c, l, m', rfl, hF, -, hdata, hmd, hsec, -, hph, hcomp⟩ := packBytesToBytes_ok L h
  obtain ⟨init, p0, h2, -⟩ := hF.lengths
  obtain ⟨p, t, hp⟩ : ∃ p t, F.chunks = p :: t := by
    cases hi : init with
    | nil => exact ⟨p0, [], by rw [h2, hi]; rfl⟩
    | cons x xs => exact ⟨x, xs ++ [p0], by rw [h2, hi]; rfl⟩
  have hpm : p ∈ F.chunks := by rw [hp]; exact List.mem_cons_self
  have hfr := framed_of_decompress L (hF.chunks_ok p hpm)
  obtain ⟨v, vlz, fl, ts, nb, bs, ct, rest, e, hnb, hbs, hct, hctl⟩ := chunk_parts p.1 hfr.1
  have hx : p.1[2]? = some fl := by rw [e]; rfl
  have hfl := hcodecs _ _ _ (hcomp p hpm) fl hx
  obtain ⟨r1, -, r3⟩ := C64_info E L S prog args fs hcmd F hF hfile v vlz fl ts nb bs ct rest hnb hbs hct
    (by rw [hp, ← e]; rfl) hfl
  obtain ⟨-, k1, k2, k3, k4, k5, k6, k7, k8, -⟩ := packHeader_ok hph
  refine ⟨_, _, _, _, fl, r1, by rw [← hmd]; exact r3, k1, k2, k3, k4, k5, ?_, ?_, ?_, rfl, ?_⟩
  · rw [← hdata]; exact hF.total_length
  · rw [Option.isSome_map, ← hF.meta_flag, k3]
  · unfold Spec.fileOffsets
    rw [k2]
    cases b.offsets with
    | false => rfl
    | true => rw [if_pos rfl, if_pos rfl, positions_length, List.length_map, hF.nchunks]
  · intro o ho
    refine ⟨p.1, p.2, hcomp p hpm, ?_, hx, ?_⟩
    · unfold Spec.fileOffsets at ho
      split at ho
      · rw [hp] at ho
        have ho := Option.some.inj ho
        rw [← ho, Int.toNat_natCast]
        simp [File.bytes, File.body, hp, Spec.records]
      · cases ho
    · show ct = _
      rw [hctl, hfr.2]

/-- C53: on every packed file `blpk info` ends normally, if blosc stores one of the five codecs it documents in the flags of a
chunk (the upper three bits of the third byte). -/
theorem C53_info_packed (E : Env μ) (L : E.Laws) (S : Shown μ) (prog : List Char) (args : CliArgs) (fs : FS)
    (hcodecs : ∀ d a c, E.compress d a = .ok c → ∀ x, c[2]? = some x → x.toNat / 32 ≤ 4)
    (hcmd : Spec.IsInfo args) (data : Bytes) (cs : ChunkSizeArg) (md : Option μ) (a : BloscArgs) (b : BloscpackArgs)
    (m : MetadataArgs) (out : Bytes) (h : packBytesToBytes E data cs md a b m = .ok out) (hfile : fs.files args.file_ = some out) :
    (blpk E S prog args fs).1 = .ok () := by
  obtain ⟨_, _, _, _, _, h1, -⟩ := C64_info_packed E L S prog args fs hcodecs hcmd data cs md a b m out h hfile
  exact h1

/-- the files of `CliExample` after compression, and `blpk info` on them -/
example : (blpk Toy.env CliExample.shown [] { subcommand := some "info", file_ := "f.blp" }
      (blpk Toy.env CliExample.shown [] CliExample.cArgs CliExample.fs).2.fs).1 = .ok () ∧
    (blpk Toy.env CliExample.shown [] { subcommand := some "i", file_ := "f" } CliExample.fs).1 = .error (.systemExit 1) := by
  decide +kernel
/-! what is printed determines the fields -/

theorem until_inj {c : Char} {a b r r' : List Char} (ha : c ∉ a) (hb : c ∉ b) (h : a ++ c :: r = b ++ c :: r') : a = b ∧ r = r' := by
  induction a generalizing b with
  | nil =>
    cases b with
    | nil => exact ⟨rfl, (List.cons.inj h).2⟩
    | cons y b => exact absurd (by rw [(List.cons.inj h).1]; exact List.mem_cons_self) hb
  | cons x a ih =>
    cases b with
    | nil => exact absurd (by rw [← (List.cons.inj h).1]; exact List.mem_cons_self) ha
    | cons y b =>
      obtain ⟨h1, h2⟩ := List.cons.inj h
      obtain ⟨h3, h4⟩ := ih (fun hc => ha (List.mem_cons_of_mem _ hc)) (fun hc => hb (List.mem_cons_of_mem _ hc)) h2
      exact ⟨by rw [h1, h3], h4⟩

theorem shownSize_inj {m n : Int} (h : Spec.shownSize m = Spec.shownSize n) : m = n := by
  have := @shown_bytes_inj ["k"] "k" m n
  rw [shown_size _ _ _ (by decide), shown_size _ _ _ (by decide)] at this
  exact this h

theorem pyBool_inj {a b : Bool} (h : (Spec.pyBool a).toList = (Spec.pyBool b).toList) : a = b := by
  revert h; cases a <;> cases b <;> decide

theorem toList_inj {a b : String} (h : a.toList = b.toList) : a = b := String.toList_inj.1 h

/-- C64: the printed lines determine the header -/
theorem C64_header_told (h h' : BloscpackHeader) (e : Spec.headerLines h = Spec.headerLines h') : h = h' := by
  obtain ⟨a1, a2, a3, a4, a5, a6, a7, a8, a9⟩ := h
  obtain ⟨b1, b2, b3, b4, b5, b6, b7, b8, b9⟩ := h'
  simp only [Spec.headerLines, List.cons.injEq, String.toList_append, List.append_cancel_left_eq, List.append_cancel_right_eq, toString_str,
    and_true, true_and] at e
  obtain ⟨e1, e2, e3, e4, e5, e6, e7, e8, e9⟩ := e
  rw [int_text_inj e1, pyBool_inj e2, pyBool_inj e3, toList_inj e4, int_text_inj e5, shownSize_inj e6, shownSize_inj e7, int_text_inj e8,
    int_text_inj e9]

/-- C64: the printed lines determine the metadata header -/
theorem C64_metadata_header_told (h h' : MetadataHeader) (e : Spec.metaHeaderLines h = Spec.metaHeaderLines h') : h = h' := by
  obtain ⟨a1, a2, a3, a4, a5, a6, a7, a8, a9⟩ := h
  obtain ⟨b1, b2, b3, b4, b5, b6, b7, b8, b9⟩ := h'
  simp only [Spec.metaHeaderLines, List.cons.injEq, String.toList_append, List.append_cancel_left_eq, List.append_cancel_right_eq,
    toString_str, and_true, true_and] at e
  obtain ⟨e1, e2, e3, e4, e5, e6, e7, e8, e9⟩ := e
  rw [reprBytes_inj e1, e2, toList_inj e3, toList_inj e4, int_text_inj e5, shownSize_inj e6, shownSize_inj e7, shownSize_inj e8,
    reprBytes_inj e9]

theorem int_until {i j : Int} {l r r' : List Char} (hl : ∃ c, l.head? = some c ∧ c.isDigit = false ∧ c ≠ '-')
    (h : (toString i).toList ++ (l ++ r) = (toString j).toList ++ (l ++ r')) : i = j ∧ r = r' := by
  obtain ⟨c, h1, h2, h3⟩ := hl
  cases l with
  | nil => cases h1
  | cons x l =>
    cases h1
    have key : ∀ n : Int, c ∉ (toString n).toList := by
      intro n hc
      have hn : ∀ m : Nat, c ∉ (toString m).toList := fun m hm => by
        have := Nat.isDigit_of_mem_toDigits (by decide) (by decide) (show c ∈ Nat.toDigits 10 m by simpa [Nat.toString_eq_repr, Nat.repr] using hm)
        rw [h2] at this; cases this
      rw [int_text] at hc
      split at hc
      · rcases List.mem_cons.1 hc with h | h
        · exact h3 h
        · exact hn _ h
      · exact hn _ hc
    obtain ⟨h4, h5⟩ := until_inj (key i) (key j) h
    exact ⟨int_text_inj h4, List.append_cancel_left h5⟩

/-- C64: the printed line determines the header of the chunk -/
theorem C64_chunk_header_told (braces : Bool) (h h' : BloscHeader) (e : Spec.bloscHeaderLine braces h = Spec.bloscHeaderLine braces h') :
    h = h' := by
  obtain ⟨a1, a2, a3, a4, a5, a6, a7⟩ := h
  obtain ⟨b1, b2, b3, b4, b5, b6, b7⟩ := h'
  cases braces
  all_goals
    simp only [Spec.bloscHeaderLine, if_true, Bool.false_eq_true, if_false, String.toList_append, toString_str, List.append_assoc,
      List.append_cancel_left_eq] at e
    obtain ⟨x1, e1⟩ := int_until ⟨_, rfl, by decide, by decide⟩ e
    obtain ⟨x2, e2⟩ := int_until ⟨_, rfl, by decide, by decide⟩ e1
    obtain ⟨x3, e3⟩ := int_until ⟨_, rfl, by decide, by decide⟩ e2
    obtain ⟨x4, e4⟩ := int_until ⟨_, rfl, by decide, by decide⟩ e3
    obtain ⟨x5, e5⟩ := int_until ⟨_, rfl, by decide, by decide⟩ e4
    obtain ⟨x6, e6⟩ := int_until ⟨_, rfl, by decide, by decide⟩ e5
    rw [List.append_cancel_right_eq] at e6
    rw [x1, x2, x3, x4, x5, x6, int_text_inj e6]

/-- what is printed for the file of `CliExample` -/
example : (blpk Toy.env CliExample.shown "blpk".toList { subcommand := some "info", file_ := "f.blp" }
      (blpk Toy.env CliExample.shown [] CliExample.cArgs CliExample.fs).2.fs).2.log.out.map String.ofList =
    ["blpk: BloscpackHeader:", "blpk:     format_version: 3", "blpk:     offsets: False", "blpk:     metadata: False",
     "blpk:     checksum: 'adler32'", "blpk:     typesize: 8", "blpk:     chunk_size: 2.0B (2B)",
     "blpk:     last_chunk: 1.0B (1B)", "blpk:     nchunks: 2", "blpk:     max_app_chunks: 0",
     "blpk: First chunk blosc header:",
     "blpk: OrderedDict({'version': 2, 'versionlz': 1, 'flags': 2, 'typesize': 8, 'nbytes': 2, 'blocksize': 2, 'ctbytes': 18})",
     "blpk: First chunk blosc flags: ",
     "blpk: OrderedDict({'byte_shuffle': False, 'pure_memcpy': True, 'bit_shuffle': False, 'split_blocks': False, 'codec': 'blosclz'})"] := by
  decide +kernel

end Bloscpack
