import Verif.Spec.Transform
/-
The value of a copy, for every transform (C19, C20, C22).
-/

namespace Verif

variable {V : Type}

/-- All that a transform uses exists. -/
def Whole (h : THeap V) (r : Nat) : Prop := ∀ i, Reach h r i → i < h.length

/-- What a copy evaluates to: the same, except that an operator whose right operand is no transform
evaluates its left operand and then raises `TypeError`. -/
def evalCopy (S : TSem V) (h : THeap V) : Nat → Nat → Except Err V
  | 0, _ => .error .recursion
  | n + 1, r => match h[r]? with
    | none => .error .attributeError
    | some t => match t.data with
      | .arith _ l (.val _) => match evalOpd (evalT S h n) l with
        | .error e => .error e
        | .ok _ => .error .typeError
      | .arith _ l .none => match evalOpd (evalT S h n) l with
        | .error e => .error e
        | .ok _ => .error .typeError
      | _ => evalNode S (evalCopy S h n) t

/-- The transforms that are evaluated with a transform: the operands of an operator, the next transform of
the others. -/
def TNode.evaluates (t : TNode V) : List Nat :=
  match t.data with
  | .arith _ l r => l.refs ++ r.refs
  | .transform => []
  | .out _ => []
  | _ => t.next.toList

/-- `j` is `i` itself, or evaluated with it. -/
inductive UsedBy (h : THeap V) (i : Nat) : Nat → Prop where
  | self : UsedBy h i i
  | step {j k t} : UsedBy h i j → h[j]? = some t → k ∈ t.evaluates → UsedBy h i k

/-- An operator whose right operand is a number or a buffer. -/
def HasNumber (h : THeap V) (i : Nat) : Prop :=
  ∃ t op l v, h[i]? = some t ∧ t.data = .arith op l (.val v)

/-- The value of an operand after a copy. -/
def opdCopy (S : TSem V) (h : THeap V) (f : Nat) : Opd V → Except Err (Option V) :=
  evalOpd (evalCopy S h f)

end Verif
