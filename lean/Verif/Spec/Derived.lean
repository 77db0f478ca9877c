import Verif.Model.Derived
import Verif.Spec.Tracked
/-
Vocabulary of the properties of arrays computed from others.
-/

namespace Verif

/-- For each array, in the order in which they come, the array made by GSP that it was computed from,
at first or at last. -/
def originsStep (os : List (Option Nat)) (done : Bool) : FamOp → List (Option Nat)
  | .make _ _ _ => os ++ [some os.length]
  | .derive i _ _ _ _ => if done then os ++ [(os[i]?).join] else os
  | .join _ _ _ => os ++ [none]
  | .on _ _ => os

/-- Along a program. -/
def origins : Family → List FamOp → List (Option Nat) → List (Option Nat)
  | _, [], os => os
  | f, op :: ops, os => origins (famStep f op).1 ops (originsStep os (famStep f op).2.isNone op)

/-- Arrays come with the memory their shape and items ask for. -/
def FamOp.Sized : FamOp → Prop
  | .make item shape mem | .derive _ _ item shape mem | .join item shape mem =>
    mem.length = shape.prod * item
  | .on _ _ => True

instance : ∀ op : FamOp, Decidable op.Sized
  | .make _ _ _ | .derive _ _ _ _ _ | .join _ _ _ | .on _ _ => by unfold FamOp.Sized; infer_instance

/-- Assignments go through arrays made by GSP and their views, in the ways of which the tracker is
told. -/
def Plainly (f : Family) (os : List (Option Nat)) : FamOp → Prop
  | .make item shape mem => mem.length = shape.prod * item
  | .on i op => if os[i]? = some (some i) then ∀ r, f.roots[i]? = some r → Tells r.arr op
    else match op with
      | .write _ _ _ => False
      | _ => True
  | _ => True

/-- Along a program. -/
def AlongPlainly : Family → List (Option Nat) → List FamOp → Prop
  | _, _, [] => True
  | f, os, op :: ops => Plainly f os op ∧
    AlongPlainly (famStep f op).1 (originsStep os (famStep f op).2.isNone op) ops

/-- The program with no arrays. -/
def Family.empty : Family := ⟨[], []⟩

/-- Of `n` rows, the index `r` names row `k`. -/
def NamesRow (n : Nat) (r : Int) (k : Nat) : Prop := k < n ∧ (r = k ∨ r = (k : Int) - n)

/-- The rows picked are among the first ones, as many as are picked: `Z[[2, 0, 1]]`, or a mask with
no false item before a true one. -/
def PickKey.Leading (n : Nat) : PickKey → Prop
  | .array rows => ∀ k < n, rows.length ≤ k → (k : Int) ∉ rows ∧ (k : Int) - n ∉ rows
  | _ => True

instance (n : Nat) : ∀ k : PickKey, Decidable (k.Leading n)
  | .array _ | .list _ | .grid => by unfold PickKey.Leading; infer_instance

/-- Operations that tell the tracker what they modify. -/
def PickTells (s : ArrState) : PickOp → Prop
  | .plain op => Tells s op
  | .pick key _ => key.Leading (s.shape.headD 0)

instance (s : ArrState) : ∀ op, Decidable (PickTells s op)
  | .plain _ | .pick _ _ => by unfold PickTells; infer_instance

/-- Along a history. -/
def AlongPick : ArrState → List PickOp → Prop
  | _, [] => True
  | s, op :: ops => PickTells s op ∧ AlongPick (pickStep s op).1 ops

instance : ∀ s ops, Decidable (AlongPick s ops)
  | _, [] => isTrue trivial
  | s, op :: ops =>
    have := instDecidableAlongPick (pickStep s op).1 ops
    inferInstanceAs (Decidable (PickTells s op ∧ AlongPick (pickStep s op).1 ops))

end Verif
