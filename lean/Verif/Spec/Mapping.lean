import Verif.Model.Objects
/-
What a program can do with header and argument objects, as histories of operations on a heap of them.
-/
namespace Bloscpack

/-- An operation on the object with number `o`. `setattr` is a plain assignment `obj.key = value`; `copy` makes a new object, which
gets the next number. -/
inductive ObjOp where
  | setitem (o : Nat) (key : String) (value : ObjVal)
  | setattr (o : Nat) (key : String) (value : ObjVal)
  | delitem (o : Nat) (key : String)
  | pop (o : Nat) (key : String) (default : Option ObjVal)
  | popitem (o : Nat)
  | clear (o : Nat)
  | update (o : Nat) (items : List (String × ObjVal))
  | setdefault (o : Nat) (key : String) (value : ObjVal)
  | copy (o : Nat)

/-- run a method on one object of the heap (nothing happens if there is no such object) -/
def onObj {α : Type} (i : Nat) (m : Proc MapObj α) : Proc (List MapObj) Unit := fun heap =>
  match heap[i]? with
  | none => (.ok (), heap)
  | some o => ((m o).1.map (fun _ => ()), heap.set i (m o).2)

/-- one operation -/
def ObjOp.run : ObjOp → Proc (List MapObj) Unit
  | .setitem o k v => onObj o (objSetitem k v)
  | .setattr o k v => onObj o (Proc.modify (fun x => x.setattr k v))
  | .delitem o k => onObj o (objDelitem k)
  | .pop o k d => onObj o (objPop k d)
  | .popitem o => onObj o objPopitem
  | .clear o => onObj o objClear
  | .update o items => onObj o (objUpdate items)
  | .setdefault o k v => onObj o (objSetdefault k v)
  | .copy o => fun heap =>
    match heap[o]? with
    | none => (.ok (), heap)
    | some x => (.ok (), heap ++ [x.copy])

/-- operations one after the other, going on after exceptions -/
def runOps : List ObjOp → List MapObj → List MapObj
  | [], heap => heap
  | op :: ops, heap => runOps ops (op.run heap).2

/-- `obj[key]` for the object with number `i` -/
def readItem (heap : List MapObj) (i : Nat) (key : String) : Option (Except Err ObjVal) := heap[i]?.map (·.getitem key)

/-- Does the operation try to assign the attribute `key` of object `o`? -/
def Spec.Assigns (o : Nat) (key : String) : ObjOp → Prop
  | .setitem o' k _ => o' = o ∧ k = key
  | .setattr o' k _ => o' = o ∧ k = key
  | .update o' items => o' = o ∧ key ∈ items.map (·.1)
  | _ => False

end Bloscpack
