import Verif.Model.AbstractIO
/-
How `pack` and `unpack` use sources and sinks, including those that a user has written.
-/
namespace Bloscpack.Spec
variable {μ σ τ : Type}

/-- a call of a method of a `CompressedSink`, with its arguments -/
inductive Call (μ : Type) where
  | configure (blosc_args : BloscArgs) (header : BloscpackHeader)
  | writeBloscpackHeader
  | writeMetadata (metadata : Option μ) (metadata_args : MetadataArgs)
  | initOffsets
  | put (i : Nat) (compressed : Bytes)
  | finalize

/-- the exception that a method or function has raised, if any, and the object afterwards -/
def raised {α : Type} (r : Except Err α × σ) : Option Err × σ :=
  match r.1 with
  | .ok _ => (none, r.2)
  | .error e => (some e, r.2)

/-- make a call -/
def Call.perform (sink : CompressedSink μ σ) (s : σ) : Call μ → Option Err × σ
  | .configure a h => raised (sink.configure a h s)
  | .writeBloscpackHeader => raised (sink.writeBloscpackHeader s)
  | .writeMetadata md m => raised (sink.writeMetadata md m s)
  | .initOffsets => raised (sink.initOffsets s)
  | .put i c => raised (sink.put i c s)
  | .finalize => raised (sink.finalize s)

/-- make the calls, one after the other, until one of them raises an exception; if none of them does, raise `stop`, if it is an exception -/
def perform (sink : CompressedSink μ σ) : List (Call μ) → Option Err → σ → Option Err × σ
  | [], stop, s => (stop, s)
  | c :: cs, stop, s =>
    match c.perform sink s with
    | (none, s') => perform sink cs stop s'
    | (some e, s') => (some e, s')

/-- `put` is called for the chunks, with the numbers `i`, `i + 1`, … -/
def puts : Nat → List Bytes → List (Call μ)
  | _, [] => []
  | i, c :: cs => .put i c :: puts (i + 1) cs

/-- the source yields these chunks and digests, from the `i`-th one on, and `s` becomes `s'` -/
inductive Yielded (source : CompressedSource σ) : Nat → σ → List (Bytes × Option Bytes) → σ → Prop where
  | nothing (i : Nat) (s : σ) : Yielded source i s [] s
  | next (i : Nat) (s s' s'' : σ) (x : Bytes × Option Bytes) (l : List (Bytes × Option Bytes)) (h : source.next i s = (.ok x, s'))
      (hl : Yielded source (i + 1) s' l s'') : Yielded source i s (x :: l) s''

/-- the digest belongs to the chunk, or there is none -/
def Right (impl : Hash) (x : Bytes × Option Bytes) : Prop := x.2 = none ∨ x.2 = some [] ∨ x.2 = some (impl.function x.1)

/-- a `PlainSink` is given these chunks, until it raises an exception -/
def putAll (put : Bytes → Proc τ Unit) : List Bytes → τ → Option Err × τ
  | [], t => (none, t)
  | c :: cs, t =>
    match put c t with
    | (.ok _, t') => putAll put cs t'
    | (.error e, t') => (some e, t')

/-- what has happened when `unpack` ends: `got` has been yielded by the source -/
inductive Unpacked (source : CompressedSource σ) (put : Bytes → Proc τ Unit) (t : τ) (n i : Nat) (got : List (Bytes × Option Bytes)) (s' : σ) :
    Except Err Unit × (σ × τ) → Prop where
  /-- everything has been handed over -/
  | done (t' : τ) (hn : got.length = n) (hr : ∀ x ∈ got, Right source.checksumImpl x) (hp : putAll put (got.map (·.1)) t = (none, t')) :
      Unpacked source put t n i got s' (.ok (), (s', t'))
  /-- the source has raised an exception; everything before has been handed over -/
  | source (e : Err) (s'' : σ) (t' : τ) (hn : got.length < n) (hs : source.next (i + got.length) s' = (.error e, s''))
      (hr : ∀ x ∈ got, Right source.checksumImpl x) (hp : putAll put (got.map (·.1)) t = (none, t')) :
      Unpacked source put t n i got s' (.error e, (s'', t'))
  /-- the digest of the last chunk is wrong; everything before it has been handed over -/
  | digest (init : List (Bytes × Option Bytes)) (x : Bytes × Option Bytes) (t' : τ) (hn : got.length ≤ n) (hg : got = init ++ [x])
      (hx : ¬ Right source.checksumImpl x) (hr : ∀ x ∈ init, Right source.checksumImpl x) (hp : putAll put (init.map (·.1)) t = (none, t')) :
      Unpacked source put t n i got s' (.error .checksumMismatch, (s', t'))
  /-- the sink has raised an exception when it was given the last chunk -/
  | sink (init : List (Bytes × Option Bytes)) (x : Bytes × Option Bytes) (e : Err) (t₁ t' : τ) (hn : got.length ≤ n) (hg : got = init ++ [x])
      (hr : ∀ x ∈ got, Right source.checksumImpl x) (hp : putAll put (init.map (·.1)) t = (none, t₁)) (hx : put x.1 t₁ = (.error e, t')) :
      Unpacked source put t n i got s' (.error e, (s', t'))

end Bloscpack.Spec
