import Verif.Model.Py
/-
The graph of transforms (gsp/transform/transform.py, operator.py, accessor.py, measure.py,
colormap.py, out.py). Arithmetic on the evaluated values is a parameter (`TSem`); it is made
concrete in Model/Values.lean.

Simplifications: objects are references into a heap; recording is reduced to the type check
it makes (`TSem.ok`); a buffer is a value, not another transform; the base class `Operator`
and the class `Measure`, which cannot be copied and cannot be instantiated, are left out;
recursion and the loop of `last` are bounded by `fuel` (Python's limit for recursion), and
exhaustion is `RecursionError`; the left operand of a binary operator is not an ndarray
(numpy would take over).
-/

namespace Verif

/-- gsp/transform/operator.py:147-207. -/
inductive AOp where
  | add | sub | mul | div
deriving DecidableEq, Repr

/-- gsp/transform/measure.py:121-233. -/
inductive MUnit where
  | pixel | inch | point | centimeter | millimeter | meter | kilometer
deriving DecidableEq, Repr

/-- An operand: `None`, a value that is no transform (number, buffer), or a transform. -/
inductive Opd (V : Type) where
  | none
  | val (v : V)
  | ref (r : Nat)
deriving DecidableEq, Repr

/-- The class of a transform with its own attributes: the operands of an arithmetic operator
(operator.py:28-41), the key of an accessor with the key its class gives it (accessor.py:29,
59-131; `none` for `Accessor` itself), the unit of a measure, the settings of a colormap
(colormap.py:36-39), the name of an output (out.py:27). -/
inductive TData (V : Type) where
  | transform
  | arith (op : AOp) (left right : Opd V)
  | accessor (own key : Option String)
  | measure (u : MUnit)
  | colormap (cmap : Option String) (vmin vmax : Option V)
  | out (name : Option String)
deriving DecidableEq, Repr

/-- A transform (transform.py:36-39). -/
structure TNode (V : Type) where
  base : Option Nat
  next : Option Nat
  buffer : Option V
  data : TData V
deriving DecidableEq, Repr

/-- All transforms of the process. -/
abbrev THeap (V : Type) := List (TNode V)

/-- What evaluation does with values, for fixed variables; which values the type check of
instrumented methods accepts (annotation `Transform | Buffer | float | int`), which values
`__call__` binds (transform.py:156), and which values `Measure.__mul__` binds (measure.py:99). -/
structure TSem (V : Type) where
  arith : AOp → V → V → Except Err V
  access : Option String → V → Except Err V
  hasDpi : Bool
  measure : MUnit → V → Except Err V
  one : V
  cmap : Option String → Option V → Option V → Option V → Except Err V
  out : Option String → Except Err V
  ok : V → Bool
  bindable : V → Bool
  scales : V → Bool
  minusOne : V

variable {V : Type}

/-- Assigning attributes of transform `r`. -/
def setNode (h : THeap V) (r : Nat) (f : TNode V → TNode V) : THeap V := h.modify r f

/-- `self.__class__()`: a new transform of the same class, with default attributes. -/
def TData.fresh : TData V → TData V
  | .transform => .transform
  | .arith op _ _ => .arith op .none .none
  | .accessor own _ => .accessor own own
  | .measure u => .measure u
  | .colormap _ _ _ => .colormap none none none
  | .out _ => .out none

/-! ### Properties (transform.py:92-133) -/

/-- `base` (transform.py:92-100). -/
def baseOf (h : THeap V) : Nat → Nat → Except Err Nat
  | 0, _ => .error .recursion
  | n + 1, r => match h[r]? with
    | none => .error .attributeError
    | some t => match t.base with
      | none => .ok r
      | some b => baseOf h n b

/-- `last` (transform.py:118-126). -/
def lastOf (h : THeap V) : Nat → Nat → Except Err Nat
  | 0, _ => .error .recursion
  | n + 1, r => match h[r]? with
    | none => .error .attributeError
    | some t => match t.next with
      | none => .ok r
      | some x => lastOf h n x

/-- `self.left.bound`: numbers, buffers and `None` have no attribute `bound`. -/
def boundOpd (rec : Nat → Except Err Bool) : Opd V → Except Err Bool
  | .ref x => rec x
  | _ => .error .attributeError

/-- `bound` (transform.py:128-133, operator.py:43-49). -/
def boundOf (h : THeap V) : Nat → Nat → Except Err Bool
  | 0, _ => .error .recursion
  | n + 1, r => match h[r]? with
    | none => .error .attributeError
    | some t => match t.data with
      | .arith _ l rt =>
        match boundOpd (boundOf h n) l with
        | .error e => .error e
        | .ok false => .ok false
        | .ok true => boundOpd (boundOf h n) rt
      | _ => match lastOf h (n + 1) r with
        | .error e => .error e
        | .ok x => match h[x]? with
          | none => .error .attributeError
          | some y => .ok y.buffer.isSome

/-! ### Evaluation -/

/-- operator.py:124-132: a transform is evaluated, anything else is taken as it is. -/
def evalOpd (rec : Nat → Except Err V) : Opd V → Except Err (Option V)
  | .ref r => match rec r with
    | .error e => .error e
    | .ok v => .ok (some v)
  | .val v => .ok (some v)
  | .none => .ok none

/-- `left op right`; `None` has no arithmetic (operator.py:161,176,191,207). -/
def arithVal (S : TSem V) (op : AOp) : Option V → Option V → Except Err V
  | some a, some b => S.arith op a b
  | _, _ => .error .typeError

/-- The value a transform applies to: its `next` evaluated, or else its buffer. -/
def evalArg (rec : Nat → Except Err V) (t : TNode V) : Except Err (Option V) :=
  match t.next with
  | some x => match rec x with
    | .error e => .error e
    | .ok v => .ok (some v)
  | none => .ok t.buffer

/-- One level of `evaluate`: transform.py:80-90, operator.py:122-207, accessor.py:36-56,
measure.py:51-96, colormap.py:69-84, out.py:46-74. Operators ignore `next` and `buffer`. -/
def evalNode (S : TSem V) (rec : Nat → Except Err V) (t : TNode V) : Except Err V :=
  match t.data with
  | .transform => .error .notImplemented
  | .arith op l r =>
    match evalOpd rec l with
    | .error e => .error e
    | .ok a => match evalOpd rec r with
      | .error e => .error e
      | .ok b => arithVal S op a b
  | .accessor _ key =>
    match evalArg rec t with
    | .error e => .error e
    | .ok none => .error .valueError
    | .ok (some v) => S.access key v
  | .measure u =>
    if S.hasDpi then
      match evalArg rec t with
      | .error e => .error e
      | .ok v => S.measure u (v.getD S.one)
    else .error .valueError
  | .colormap c lo hi =>
    match evalArg rec t with
    | .error e => .error e
    | .ok v => S.cmap c lo hi v
  | .out name => S.out name

/-- `evaluate`. -/
def evalT (S : TSem V) (h : THeap V) : Nat → Nat → Except Err V
  | 0, _ => .error .recursion
  | n + 1, r => match h[r]? with
    | none => .error .attributeError
    | some t => evalNode S (evalT S h n) t

/-! ### Copy (transform.py:135-145, operator.py:103-120, accessor.py:31-34,
colormap.py:57-66, out.py:32-43) -/

/-- Results that carry the heap along with a value or an exception. -/
abbrev TRes (V α : Type) := THeap V × Except Err α

/-- Type check of an instrumented setter; the attribute has been set already. -/
def okOpt (S : TSem V) : Option V → Bool
  | none => true
  | some v => S.ok v

/-- transform.py:143-144. -/
def copyNext (rec : THeap V → Nat → TRes V Nat) (h : THeap V) (r : Nat) :
    Option Nat → TRes V Unit
  | none => (h, .ok ())
  | some x => match rec h x with
    | (h, .error e) => (h, .error e)
    | (h, .ok x') => (setNode h r (fun t => { t with next := some x' }), .ok ())

/-- `set_left` of the copy `r`. -/
def setLeft (h : THeap V) (r : Nat) (o : Opd V) : THeap V :=
  setNode h r (fun t => match t.data with
    | .arith op _ rt => { t with data := .arith op o rt }
    | _ => t)

/-- `set_right`. -/
def setRight (h : THeap V) (r : Nat) (o : Opd V) : THeap V :=
  setNode h r (fun t => match t.data with
    | .arith op l _ => { t with data := .arith op l o }
    | _ => t)

/-- The type check on an operand. -/
def okOpd (S : TSem V) : Opd V → Bool
  | .val v => S.ok v
  | _ => true

/-- operator.py:110-113. -/
def copyLeft (S : TSem V) (rec : THeap V → Nat → TRes V Nat) (h : THeap V) (r : Nat)
    (l : Opd V) : TRes V Unit :=
  match l with
  | .ref x => match rec h x with
    | (h, .error e) => (h, .error e)
    | (h, .ok x') => (setLeft h r (.ref x'), .ok ())
  | l => (setLeft h r l, if okOpd S l then .ok () else .error .valueError)

/-- operator.py:115-118. When the right operand is no transform, the left operand of the
original is assigned a second time, and the right operand is not copied. -/
def copyRight (S : TSem V) (rec : THeap V → Nat → TRes V Nat) (h : THeap V) (r : Nat)
    (l rt : Opd V) : TRes V Unit :=
  match rt with
  | .ref x => match rec h x with
    | (h, .error e) => (h, .error e)
    | (h, .ok x') => (setRight h r (.ref x'), .ok ())
  | _ => (setLeft h r l, if okOpd S l then .ok () else .error .valueError)

/-- What subclasses copy after `Transform.copy` (`set_operator` is left out: the operator
symbol plays no role in evaluation). -/
def copyData (S : TSem V) (rec : THeap V → Nat → TRes V Nat) (h : THeap V) (r : Nat)
    (d : TData V) : TRes V Unit :=
  match d with
  | .arith _ l rt => match copyLeft S rec h r l with
    | (h, .error e) => (h, .error e)
    | (h, .ok ()) => copyRight S rec h r l rt
  | d => (setNode h r (fun t => { t with data := d }), .ok ())

/-- `copy`. -/
def copyT (S : TSem V) : Nat → THeap V → Nat → TRes V Nat
  | 0, h, _ => (h, .error .recursion)
  | n + 1, h, r => match h[r]? with
    | none => (h, .error .attributeError)
    | some t =>
      let r' := h.length
      let h := h ++ [⟨none, none, t.buffer, t.data.fresh⟩]
      if okOpt S t.buffer then
        match baseOf h (n + 1) r with
        | .error e => (h, .error e)
        | .ok b =>
          let h := setNode h r' (fun t => { t with base := some b })
          match copyNext (copyT S n) h r' t.next with
          | (h, .error e) => (h, .error e)
          | (h, .ok ()) =>
            match copyData S (copyT S n) h r' t.data with
            | (h, .error e) => (h, .error e)
            | (h, .ok ()) => (h, .ok r')
      else (h, .error .valueError)

/-! ### Combination -/

/-- `__call__` (transform.py:147-162, out.py:29-30). -/
def callT (S : TSem V) (n : Nat) (h : THeap V) (r : Nat) (other : Opd V) : TRes V Nat :=
  match h[r]? with
  | none => (h, .error .attributeError)
  | some t =>
    match t.data with
    | .out _ => (h, .error .typeError)
    | _ =>
      match copyT S n h r with
      | (h, .error e) => (h, .error e)
      | (h, .ok r') =>
        match other with
        | .ref o => match copyT S n h o with
          | (h, .error e) => (h, .error e)
          | (h, .ok o') =>
            (setNode h r' (fun t => { t with next := some o', buffer := none }), .ok r')
        | .val v =>
          if S.bindable v then
            match boundOf h n r with
            | .error e => (h, .error e)
            | .ok true => (h, .error .valueError)
            | .ok false => match lastOf h n r' with
              | .error e => (h, .error e)
              | .ok x =>
                let h := setNode h x (fun t => { t with buffer := some v })
                if S.ok v then (h, .ok r') else (h, .error .valueError)
          else (h, .error .valueError)
        | .none => (h, .error .valueError)

/-- operator.py:33-41: a transform operand is copied. -/
def initOpd (S : TSem V) (n : Nat) (h : THeap V) : Opd V → TRes V (Opd V)
  | .ref x => match copyT S n h x with
    | (h, .error e) => (h, .error e)
    | (h, .ok x') => (h, .ok (.ref x'))
  | o => (h, .ok o)

/-- `Add(left, right)` and the like (operator.py:11-41, 147-207). -/
def newArith (S : TSem V) (n : Nat) (h : THeap V) (op : AOp) (l rt : Opd V) : TRes V Nat :=
  let r := h.length
  let h := h ++ [⟨none, none, none, .arith op .none .none⟩]
  match initOpd S n h l with
  | (h, .error e) => (h, .error e)
  | (h, .ok l') =>
    let h := setLeft h r l'
    match initOpd S n h rt with
    | (h, .error e) => (h, .error e)
    | (h, .ok rt') =>
      let h := setRight h r rt'
      if okOpd S l' && okOpd S rt' then (h, .ok r) else (h, .error .valueError)

/-- The multiplication of a measure (measure.py:98-104), for `m * other` and `other * m`. -/
def measureMul (S : TSem V) (n : Nat) (h : THeap V) (r : Nat) (other : Opd V) : TRes V Nat :=
  match other with
  | .val v => if S.scales v then callT S n h r other else newArith S n h .mul (.ref r) other
  | o => newArith S n h .mul (.ref r) o

/-- The class of `r` overrides `__mul__`. -/
def isMeasure (h : THeap V) (r : Nat) : Bool :=
  match h[r]? with
  | some t => match t.data with | .measure _ => true | _ => false
  | none => false

/-- The operators of transform.py:164-194, with the transform on the left ... -/
inductive Bin where
  | add | sub | mul | div
deriving DecidableEq, Repr

/-- `self op other`. -/
def binT (S : TSem V) (n : Nat) (h : THeap V) (b : Bin) (r : Nat) (other : Opd V) : TRes V Nat :=
  match b with
  | .add => newArith S n h .add (.ref r) other
  | .sub => newArith S n h .sub (.ref r) other
  | .mul => if isMeasure h r then measureMul S n h r other else newArith S n h .mul (.ref r) other
  | .div => newArith S n h .div (.ref r) other

/-- ... and with a value that is no transform on the left: `__radd__`, `__rsub__`,
`__rmul__`; there is no `__rtruediv__`. -/
def rbinT (S : TSem V) (n : Nat) (h : THeap V) (b : Bin) (v : V) (r : Nat) : TRes V Nat :=
  match b with
  | .add => newArith S n h .add (.ref r) (.val v)
  | .sub => newArith S n h .sub (.val v) (.ref r)
  | .mul => if isMeasure h r then measureMul S n h r (.val v)
    else newArith S n h .mul (.val v) (.ref r)
  | .div => (h, .error .typeError)

/-- `-self` (transform.py:176-178). -/
def negT (S : TSem V) (n : Nat) (h : THeap V) (r : Nat) : TRes V Nat :=
  newArith S n h .mul (.ref r) (.val S.minusOne)

/-- The constructors with their default arguments, and `X(buffer)` and the like: the heap
with a new transform. -/
def newT (h : THeap V) (d : TData V) (buffer : Option V) : THeap V × Nat :=
  (h ++ [⟨none, none, buffer, d⟩], h.length)

/-- What a program can do without assigning attributes itself. -/
inductive TOp (V : Type) where
  | copy (r : Nat)
  | call (r : Nat) (other : Opd V)
  | bin (b : Bin) (r : Nat) (other : Opd V)
  | rbin (b : Bin) (v : V) (r : Nat)
  | neg (r : Nat)
deriving DecidableEq, Repr

/-- One such operation. -/
def combine (S : TSem V) (n : Nat) (h : THeap V) : TOp V → TRes V Nat
  | .copy r => copyT S n h r
  | .call r o => callT S n h r o
  | .bin b r o => binT S n h b r o
  | .rbin b v r => rbinT S n h b v r
  | .neg r => negT S n h r

end Verif
