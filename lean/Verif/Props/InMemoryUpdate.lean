import Verif.Lemmas.Alike
import Verif.Props.Append
import Verif.Props.Rewrite
import Verif.Examples.Toy

/-! C94: archives in memory are appended to and changed like files. -/
namespace Bloscpack
variable {μ α β σ : Type}

/-- C94: whatever is in it, appending to an archive in memory does the same as appending to a file with the same contents: the same result or
exception, and the same contents afterwards, unless the file raises `OSError` (`BytesIO` objects do not complain about seeks to before the
beginning, which only forged files cause). -/
theorem C94_append (E : Env μ) (x : Bytes) (new : FP) (n : Int) (args : AppendArgs) :
    let file := appendFp E new n args { data := x }
    let memory := appendFp E new n args { data := x, inMemory := true }
    (memory.1 = file.1 ∧ memory.2.data = file.2.data) ∨ file.1 = .error .osError := by
  intro file memory
  rcases Alike.appendFrom FP.toMemory_carrier E (fun n => (new.read n).1) (fun b cs lc k => (plainFPSource (new.read b).2 cs lc k).items) n args { data := x } with h | ⟨-, h⟩
  · left
    have h : memory = (file.1, file.2.toMemory) := h
    rw [h]
    exact ⟨rfl, rfl⟩
  · exact .inr h

/-- C94: the same for rewriting the metadata. -/
theorem C94_rewrite (E : Env μ) (x : Bytes) (md : Option μ) (args : RewriteArgs) :
    let file := rewriteMetadata E md args { data := x }
    let memory := rewriteMetadata E md args { data := x, inMemory := true }
    (memory.1 = file.1 ∧ memory.2.data = file.2.data) ∨ file.1 = .error .osError := by
  intro file memory
  rcases Alike.rewriteMetadata FP.toMemory_carrier E md args { data := x } with h | ⟨-, h⟩
  · left
    have h : memory = (file.1, file.2.toMemory) := h
    rw [h]
    exact ⟨rfl, rfl⟩
  · exact .inr h

/-- two file objects of which the same bytes are still to be read -/
def SameAhead (f g : FP) : Prop := f.data.drop f.pos = g.data.drop g.pos

theorem SameAhead.read {f g : FP} (h : SameAhead f g) (n : Int) : (f.read n).1 = (g.read n).1 ∧ SameAhead (f.read n).2 (g.read n).2 := by
  have h0 : f.data.drop f.pos = g.data.drop g.pos := h
  have h1 : (f.read n).1 = (g.read n).1 := by
    unfold FP.read
    simp only [h0]
  refine ⟨h1, ?_⟩
  show f.data.drop (f.pos + (f.read n).1.length) = g.data.drop (g.pos + (g.read n).1.length)
  rw [h1, ← List.drop_drop, ← List.drop_drop, h0]

theorem SameAhead.readMany {f g : FP} (h : SameAhead f g) (l : List Int) : (readMany l f).1 = (readMany l g).1 := by
  induction l generalizing f g with
  | nil => rfl
  | cons n l ih =>
    obtain ⟨h1, h2⟩ := h.read n
    show (f.read n).1 :: _ = (g.read n).1 :: _
    rw [h1]
    congr 1
    exact ih h2

/-- C94: where the new content comes from does not matter, either: a file or a `BytesIO`, at its beginning or at any other position -/
theorem C94_new_content (E : Env μ) (original : FP) (before data : Bytes) (inMemory inMemory' : Bool) (n : Int) (args : AppendArgs) :
    appendFp E { data := before ++ data, pos := before.length, inMemory := inMemory } n args original =
    appendFp E { data := data, inMemory := inMemory' } n args original := by
  have h : SameAhead { data := before ++ data, pos := before.length, inMemory := inMemory } { data := data, inMemory := inMemory' } := by
    show (before ++ data).drop before.length = data.drop 0
    simp
  unfold appendFp
  congr 1
  · funext k
    exact (h.read k).1
  · funext b cs lc k
    exact (h.read b).2.readMany _

/-- a chunk is appended to an archive in memory and to a file: the contents become the same, and are not what they were -/
example : (packBytesToBytes Toy.env [1, 2, 3, 4, 5] (.int 2) none {} {} {}).toOption.map (fun x =>
      let f := appendFp Toy.env { data := [9, 6, 7], pos := 1 } 2 {} { data := x }
      let g := appendFp Toy.env { data := [6, 7] } 2 {} { data := x, inMemory := true }
      [decide (f.1 = .ok 1), decide (f.1 = g.1), decide (f.2.data = g.2.data), decide (f.2.data = x)]) =
    some [true, true, true, false] := by decide +kernel

end Bloscpack
