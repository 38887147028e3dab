import Verif.Props.Json
import Verif.Examples.Toy
/-
The JSON model as the serializer of an environment: the assumptions about `dumps` and `loads` in `Env.Laws` hold of it.
-/
namespace Bloscpack
variable {μ : Type}

/-- `None` is `none` -/
def Json.toOption : Json → Option Json
  | .null => none
  | j => some j

/-- The objects the environment can dump: at top level not `None` (which is `none` in `Env`), dicts with different keys,
no adjacent surrogates (real `json.dumps` accepts those, too, but they are not read back: `C42_roundtrip`). -/
def Json.storable (j : Json) : Bool := Spec.isObject j && Spec.pairFree j && (match j with | .null => false | _ => true)

/-- An environment with its serializer replaced by the JSON model. Simplification: Python's `==` is taken to be
equality of the dumps (Python also ignores the order of dict items and equates `True` and 1). -/
def Env.withJson (E : Env μ) : Env Json where
  compress := E.compress
  decompress := E.decompress
  cnames := E.cnames
  hashlib := E.hashlib
  zcompress := E.zcompress
  zdecompress := E.zdecompress
  dumps := fun m =>
    match m with
    | none => .ok (dumpsJson .null)
    | some j => if j.storable then .ok (dumpsJson j) else .error .typeError
  loads := fun b => (loadsJson b).map Json.toOption
  metaEq := fun a b => (a.map dumpsJson).getD [] == (b.map dumpsJson).getD []

/-- all the assumptions about the serializer hold -/
theorem Env.Laws.withJson {E : Env μ} (L : E.Laws) : E.withJson.Laws where
  compress_total := L.compress_total
  compress_reject := L.compress_reject
  compress_header := L.compress_header
  decompress_compress := L.decompress_compress
  decompress_length := L.decompress_length
  zdecompress_zcompress := L.zdecompress_zcompress
  zcompress_total := L.zcompress_total
  hashlib_length := L.hashlib_length
  dumps_ascii := by
    intro m s h
    cases m with
    | none => cases h; exact dumpsJson_ascii .null
    | some j =>
      simp only [Env.withJson] at h
      split at h
      · cases h; exact dumpsJson_ascii j
      · cases h
  loads_dumps := by
    intro m s h
    cases m with
    | none =>
      cases h
      show (loadsJson (encodeUtf8 (dumpsJson .null))).map Json.toOption = _
      rw [C42_exact, Spec.joined]
      rfl
    | some j =>
      simp only [Env.withJson] at h
      split at h
      · rename_i hs
        cases h
        unfold Json.storable at hs
        simp only [Bool.and_eq_true] at hs
        obtain ⟨⟨h1, h2⟩, h3⟩ := hs
        show (loadsJson (encodeUtf8 (dumpsJson j))).map Json.toOption = _
        rw [(C42_roundtrip j h1).2 h2]
        cases j with
        | null => simp at h3
        | _ => rfl
      · cases h

/-- the toy libraries with the JSON serializer -/
def Toy.jsonEnv : Env Json := Toy.env.withJson

theorem Toy.jsonLaws : Toy.jsonEnv.Laws := Toy.laws.withJson

end Bloscpack
