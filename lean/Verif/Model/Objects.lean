import Verif.Model.Args
/-
Model of bloscpack/abstract_objects.py: the mapping protocol of headers and argument objects, and their printed form.
-/
namespace Bloscpack

/-- The values stored in headers and argument objects. `other` stands for any further object (such as a callable), of which only
the identity matters. -/
inductive ObjVal where
  | int (i : Int)
  | bool (b : Bool)
  | str (s : List Char)
  | bytes (b : Bytes)
  | other (id : Nat)
  deriving DecidableEq, Repr

/-- What the subclasses of `MutableMappingObject` define: name, `attributes` and `bytes_attributes`,
bloscpack/abstract_objects.py:20-30. -/
structure ObjClass where
  name : String
  attributes : List String
  bytes_attributes : List String := []
  deriving DecidableEq, Repr

/-- An object: its class, and its instance variables. Simplification: `_attrs` and `_bytes_attrs`, which nothing assigns after
`__init__`, are part of the class. -/
structure MapObj where
  cls : ObjClass
  vars : String → ObjVal

/-- `setattr(self, key, value)` -/
def MapObj.setattr (o : MapObj) (key : String) (value : ObjVal) : MapObj :=
  { o with vars := fun k => if k = key then value else o.vars k }

/-- `__getitem__`, bloscpack/abstract_objects.py:32-35 -/
def MapObj.getitem (o : MapObj) (key : String) : Except Err ObjVal :=
  if key ∉ o.cls.attributes then .error .keyError else .ok (o.vars key)

/-- `__setitem__`, bloscpack/abstract_objects.py:37-40 -/
def objSetitem (key : String) (value : ObjVal) : Proc MapObj Unit := fun o =>
  if key ∉ o.cls.attributes then (.error .keyError, o) else (.ok (), o.setattr key value)

/-- `__delitem__`, bloscpack/abstract_objects.py:42-45 -/
def objDelitem (_key : String) : Proc MapObj Unit := Proc.raise .notImplementedError

/-- `__len__`, bloscpack/abstract_objects.py:47-48 -/
def MapObj.len (o : MapObj) : Nat := o.cls.attributes.length

/-- `__iter__`, bloscpack/abstract_objects.py:50-51, and `keys()` -/
def MapObj.iter (o : MapObj) : List String := o.cls.attributes

/-- `copy`, bloscpack/abstract_objects.py:68-69: a new object with the same instance variables -/
def MapObj.copy (o : MapObj) : MapObj := o

/-! ### what `collections.abc.MutableMapping` derives from these (Lib/_collections_abc.py) -/

/-- `items()`: each key with `self[key]`; also what `**obj` passes on and what `dict(obj)` contains -/
def MapObj.items (o : MapObj) : List (String × Except Err ObjVal) := o.iter.map (fun k => (k, o.getitem k))

/-- `Mapping.get` -/
def MapObj.get (o : MapObj) (key : String) (default : ObjVal) : ObjVal :=
  match o.getitem key with
  | .ok v => v
  | .error _ => default

/-- `Mapping.__contains__` -/
def MapObj.contains (o : MapObj) (key : String) : Bool :=
  match o.getitem key with
  | .ok _ => true
  | .error _ => false

/-- Python `==` of values: `True == 1` and `False == 0` -/
def ObjVal.eq : ObjVal → ObjVal → Bool
  | .bool b, .int i => i == if b then 1 else 0
  | .int i, .bool b => i == if b then 1 else 0
  | v, w => v == w

/-- `Mapping.__eq__`: `dict(self.items()) == dict(other.items())`, that is the same keys with equal values -/
def MapObj.eq (o p : MapObj) : Bool :=
  o.iter.all (fun k => p.iter.contains k && (o.vars k).eq (p.vars k)) && p.iter.all (fun k => o.iter.contains k)

/-- `MutableMapping.pop` -/
def objPop (key : String) (default : Option ObjVal) : Proc MapObj ObjVal := do
  let o ← Proc.get
  match o.getitem key with
  | .error e =>
    match default with
    | none => Proc.raise e
    | some d => Proc.pure d
  | .ok value => do
    objDelitem key
    Proc.pure value

/-- `MutableMapping.popitem` -/
def objPopitem : Proc MapObj (String × ObjVal) := do
  let o ← Proc.get
  match o.iter with
  | [] => Proc.raise .keyError
  | key :: _ => do
    let value ← Proc.ofExcept (o.getitem key)
    objDelitem key
    Proc.pure (key, value)

/-- `MutableMapping.clear`: `popitem` until it raises `KeyError`. Simplification: at most as many times as there are keys. -/
def objClear : Proc MapObj Unit := fun o =>
  let rec loop : Nat → MapObj → Except Err Unit × MapObj
    | 0, o => (.ok (), o)
    | n + 1, o =>
      match objPopitem o with
      | (.ok _, o') => loop n o'
      | (.error .keyError, o') => (.ok (), o')
      | (.error e, o') => (.error e, o')
  loop (o.len + 1) o

/-- `MutableMapping.update` with the items of the argument, in order -/
def objUpdate : List (String × ObjVal) → Proc MapObj Unit
  | [] => Proc.pure ()
  | (k, v) :: rest => do
    objSetitem k v
    objUpdate rest

/-- `MutableMapping.setdefault` -/
def objSetdefault (key : String) (default : ObjVal) : Proc MapObj ObjVal := do
  let o ← Proc.get
  match o.getitem key with
  | .ok v => Proc.pure v
  | .error _ => do
    objSetitem key default
    Proc.pure default

/-! ### printed form -/

/-- a hexadecimal digit, lower case -/
def byteHexDigit (d : Nat) : Char := Char.ofNat (if d < 10 then 48 + d else 87 + d)

/-- one byte of `repr(b)`: `PyBytes_Repr` in CPython's Objects/bytesobject.c -/
def reprByte (quote : Nat) (b : UInt8) : List Char :=
  if b.toNat = quote ∨ b.toNat = 92 then ['\\', Char.ofNat b.toNat]
  else if b.toNat = 9 then ['\\', 't']
  else if b.toNat = 10 then ['\\', 'n']
  else if b.toNat = 13 then ['\\', 'r']
  else if b.toNat < 32 ∨ 127 ≤ b.toNat then ['\\', 'x', byteHexDigit (b.toNat / 16), byteHexDigit (b.toNat % 16)]
  else [Char.ofNat b.toNat]

/-- `repr` of bytes; double quotes only if that saves escaping -/
def reprBytes (b : Bytes) : List Char :=
  let quote := if (39 : UInt8) ∈ b ∧ (34 : UInt8) ∉ b then 34 else 39
  'b' :: Char.ofNat quote :: (b.flatMap (reprByte quote) ++ [Char.ofNat quote])

/-- `repr(value)`. Simplification: strings are names and option strings, of printable ASCII without quotes and backslashes. -/
def ObjVal.repr : ObjVal → List Char
  | .int i => (toString i).toList
  | .bool true => "True".toList
  | .bool false => "False".toList
  | .str s => '\'' :: (s ++ ['\''])
  | .bytes b => reprBytes b
  | .other _ => "<object>".toList

/-- the value as `pformat` shows it, bloscpack/abstract_objects.py:63-66. Simplification: for values of the attributes in
`bytes_attributes` other than integers, for which `double_pretty_size` raises, `repr` is used; no header has such a value. -/
def shownValue (bytes_attributes : List String) (key : String) (value : ObjVal) : List Char :=
  if key ∉ bytes_attributes ∨ value = .int (-1) then value.repr
  else
    match value with
    | .int i => doublePrettySize i
    | v => v.repr

/-- `separator.join(texts)` -/
def joinText (separator : List Char) : List (List Char) → List Char
  | [] => []
  | [t] => t
  | t :: ts => t ++ separator ++ joinText separator ts

/-- `pformat`, bloscpack/abstract_objects.py:60-66 -/
def MapObj.pformat (o : MapObj) (indent : Nat := 4) : List Char :=
  let indent := List.replicate indent ' '
  o.cls.name.toList ++ ":\n".toList ++ indent ++
    joinText ('\n' :: indent) (o.iter.map (fun key => key.toList ++ ": ".toList ++ shownValue o.cls.bytes_attributes key (o.vars key)))

/-- `__repr__`, bloscpack/abstract_objects.py:56-58 -/
def MapObj.repr (o : MapObj) : List Char :=
  o.cls.name.toList ++ "(".toList ++ joinText ", ".toList (o.iter.map (fun key => key.toList ++ "=".toList ++ (o.vars key).repr)) ++ ")".toList

/-! ### the classes -/

/-- a function with finitely many interesting values -/
def varsOf : List (String × ObjVal) → String → ObjVal
  | [], _ => .other 0
  | (k, v) :: rest, key => if key = k then v else varsOf rest key

/-- the class `BloscpackHeader`, bloscpack/headers.py:297-307, 319-325 -/
def BloscpackHeader.cls : ObjClass :=
  { name := "BloscpackHeader"
    attributes := ["format_version", "offsets", "metadata", "checksum", "typesize", "chunk_size", "last_chunk", "nchunks", "max_app_chunks"]
    bytes_attributes := ["chunk_size", "last_chunk"] }

/-- a `BloscpackHeader` as a mapping, bloscpack/headers.py:309-317 -/
def BloscpackHeader.obj (h : BloscpackHeader) : MapObj :=
  { cls := BloscpackHeader.cls
    vars := varsOf [("format_version", .int h.format_version), ("offsets", .bool h.offsets), ("metadata", .bool h.metadata),
      ("checksum", .str h.checksum.toList), ("typesize", .int h.typesize), ("chunk_size", .int h.chunk_size),
      ("last_chunk", .int h.last_chunk), ("nchunks", .int h.nchunks), ("max_app_chunks", .int h.max_app_chunks)] }

/-- the class `MetadataHeader`, bloscpack/headers.py:436-458 -/
def MetadataHeader.cls : ObjClass :=
  { name := "MetadataHeader"
    attributes := ["magic_format", "meta_options", "meta_checksum", "meta_codec", "meta_level", "meta_size", "max_meta_size",
      "meta_comp_size", "user_codec"]
    bytes_attributes := ["meta_size", "max_meta_size", "meta_comp_size"] }

/-- a `MetadataHeader` as a mapping, bloscpack/headers.py:426-434 -/
def MetadataHeader.obj (h : MetadataHeader) : MapObj :=
  { cls := MetadataHeader.cls
    vars := varsOf [("magic_format", .bytes h.magic_format), ("meta_options", .str h.meta_options),
      ("meta_checksum", .str h.meta_checksum.toList), ("meta_codec", .str h.meta_codec.toList), ("meta_level", .int h.meta_level),
      ("meta_size", .int h.meta_size), ("max_meta_size", .int h.max_meta_size), ("meta_comp_size", .int h.meta_comp_size),
      ("user_codec", .bytes h.user_codec)] }

/-- the class `BloscArgs`, bloscpack/args.py:322-334 -/
def BloscArgs.cls : ObjClass := { name := "BloscArgs", attributes := ["typesize", "clevel", "shuffle", "cname"] }

/-- a `BloscArgs` as a mapping, bloscpack/args.py:318-321 -/
def BloscArgs.obj (a : BloscArgs) : MapObj :=
  { cls := BloscArgs.cls
    vars := varsOf [("typesize", .int a.typesize), ("clevel", .int a.clevel), ("shuffle", .int a.shuffle), ("cname", .str a.cname.toList)] }

/-- the class `BloscpackArgs`, bloscpack/args.py:359-370 -/
def BloscpackArgs.cls : ObjClass := { name := "BloscpackArgs", attributes := ["offsets", "checksum", "max_app_chunks"] }

/-- the class `MetadataArgs`, bloscpack/args.py:404-409, 434-440 -/
def MetadataArgs.cls : ObjClass :=
  { name := "MetadataArgs", attributes := ["magic_format", "meta_checksum", "meta_codec", "meta_level", "max_meta_size"] }

end Bloscpack
