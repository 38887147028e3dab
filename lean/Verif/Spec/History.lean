import Verif.Model.Append
/-
Histories of changes to a file.
-/
namespace Bloscpack
variable {μ : Type}

/-- A change to a file: an append of `new`, or a rewrite of the metadata (to something other than `None`, see C51),
with any arguments. -/
inductive Op (μ : Type) where
  | append (new : Bytes) (args : AppendArgs)
  | rewrite (metadata : μ) (args : RewriteArgs)

/-- performing a change on a file with contents `d`: whether it succeeded, and the contents afterwards -/
def Op.run (E : Env μ) (d : Bytes) : Op μ → Bool × Bytes
  | .append new args =>
    let r := appendFp E { data := new } new.length args { data := d }
    (r.1.toBool, r.2.data)
  | .rewrite md x =>
    let r := rewriteMetadata E (some md) x { data := d }
    (r.1.toBool, r.2.data)

/-- `History E d log d'`: starting with contents `d`, the changes of `log` were tried in order, each of them succeeding or
failing as noted, and left `d'`. At no time did the file have 2⁶³ bytes or more. -/
inductive Spec.History (E : Env μ) : Bytes → List (Op μ × Bool) → Bytes → Prop
  | nil (d : Bytes) : History E d [] d
  | step {d d' : Bytes} {op : Op μ} {ok : Bool} {log : List (Op μ × Bool)} {d'' : Bytes} (run : op.run E d = (ok, d'))
      (size : d'.length < 2 ^ 63) (rest : History E d' log d'') : History E d ((op, ok) :: log) d''

/-- what the file holds, as data and metadata: the log of the successful changes applied to the start -/
def Spec.effect (start : Bytes × Option μ) : List (Op μ × Bool) → Bytes × Option μ
  | [] => start
  | (.append new _, true) :: log => Spec.effect (start.1 ++ new, start.2) log
  | (.rewrite md _, true) :: log => Spec.effect (start.1, some md) log
  | (_, false) :: log => Spec.effect start log

end Bloscpack
