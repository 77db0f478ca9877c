import Verif.Model.Transform
/-
Vocabulary of the transform properties.
-/

namespace Verif

variable {V : Type}

/-- The transform an operand refers to. -/
def Opd.refs : Opd V → List Nat
  | .ref r => [r]
  | _ => []

/-- The transforms that a transform uses when it is evaluated or copied. -/
def TNode.refs (t : TNode V) : List Nat :=
  t.next.toList ++ match t.data with
    | .arith _ l r => l.refs ++ r.refs
    | _ => []

/-- `j` is `i` itself, or used by it, directly or not. -/
inductive Reach (h : THeap V) (i : Nat) : Nat → Prop where
  | self : Reach h i i
  | step {j k t} : Reach h i j → h[j]? = some t → k ∈ t.refs → Reach h i k

/-- All references lead to transforms. -/
def THeap.Closed (h : THeap V) : Prop :=
  ∀ (i : Nat) t, h[i]? = some t → ∀ j ∈ t.refs, j < h.length

/-- The copy of this transform loses no operand: the right operand of an operator is a
transform (or both are missing). -/
def TNode.KeepsOperands (t : TNode V) : Prop :=
  match t.data with
  | .arith _ l r => r.refs ≠ [] ∨ (r = .none ∧ l.refs = [])
  | _ => True

/-- A transform and all it uses keep their operands when copied. -/
def Copyable (h : THeap V) (r : Nat) : Prop :=
  ∀ i, Reach h r i → ∃ t, h[i]? = some t ∧ t.KeepsOperands

/-- Nothing that was there has changed. -/
def Unchanged (h h' : THeap V) : Prop := ∀ i, i < h.length → h'[i]? = h[i]?

/-- An operand that can be copied. -/
def CopyableOpd (h : THeap V) : Opd V → Prop
  | .ref r => Copyable h r
  | _ => True

/-- The value of an operand. -/
def opdValue (S : TSem V) (h : THeap V) (n : Nat) (o : Opd V) : Except Err (Option V) :=
  evalOpd (evalT S h n) o

/-- A transform of one argument: an accessor, a measure or a colormap. -/
def TData.unary : TData V → Bool
  | .accessor _ _ => true
  | .measure _ => true
  | .colormap _ _ _ => true
  | _ => false

/-- The function a transform of one argument stands for; `none`: the transform is applied to
nothing. -/
def TData.fn (S : TSem V) : TData V → Option V → Except Err V
  | .accessor _ key, some v => S.access key v
  | .accessor _ _, none => .error .valueError
  | .measure u, v => if S.hasDpi then S.measure u (v.getD S.one) else .error .valueError
  | .colormap c lo hi, v => S.cmap c lo hi v
  | _, _ => .error .notImplemented

/-- The same, for an argument whose computation may have failed. A measure looks for the
resolution before it looks at its argument. -/
def TData.app (S : TSem V) (d : TData V) (arg : Except Err V) : Except Err V :=
  match d, arg with
  | .measure _, .error e => if S.hasDpi then .error e else .error .valueError
  | _, .error e => .error e
  | d, .ok v => d.fn S (some v)

/-- A chain of transforms: their classes and settings, from the outermost to the last, and
what the last one is bound to. -/
inductive IsChain (h : THeap V) : Nat → List (TData V) → Option V → Prop where
  | last {r t} : h[r]? = some t → t.next = none → IsChain h r [t.data] t.buffer
  | cons {r t x ds b} : h[r]? = some t → t.next = some x → IsChain h x ds b →
      IsChain h r (t.data :: ds) b

/-- The composition of the functions of a chain, the last one applied first. -/
def chainFn (S : TSem V) : List (TData V) → Option V → Except Err V
  | [], _ => .error .valueError
  | [d], b => d.fn S b
  | d :: ds, b => d.app S (chainFn S ds b)

/-- A transform whose chain, operands and base are all there, no deeper than `n`, and whose
values pass the type check. -/
def OkDepth (S : TSem V) (h : THeap V) : Nat → Nat → Prop
  | 0, _ => False
  | n + 1, r => ∃ t, h[r]? = some t ∧ okOpt S t.buffer = true ∧
      (match t.data with
       | .arith _ l _ => okOpd S l = true
       | _ => True) ∧
      (∃ b, baseOf h (n + 1) r = .ok b) ∧ ∀ j ∈ t.refs, OkDepth S h n j

/-- The transforms an operation is applied to. -/
def TOp.operands : TOp V → List Nat
  | .copy r => [r]
  | .call r o => r :: o.refs
  | .bin _ r o => r :: o.refs
  | .rbin _ _ r => [r]
  | .neg r => [r]

end Verif
