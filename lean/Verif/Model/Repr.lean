import Verif.Model.Transform
import Verif.Model.Dtype
/-
How transforms print (gsp/transform/transform.py:197-208, operator.py:136-145).

Simplifications: texts are lists of characters; `ids` gives the id of every transform, which is never negative;
of a number only its text is known and whether it is 0; of tuples and arrays only the text and the truth value.
-/

namespace Verif

/-- What a transform can be bound to, and the operands of an operator that are no transforms. -/
inductive RVal where
  | num (text : Text) (zero : Bool)
  | buffer (id count : Nat) (dtype : Text)
  | other (text : Text) (truth : Except Err Bool)
deriving DecidableEq

/-- `bool(value)`: a buffer has a length (gsp/core/buffer.py:56-59). -/
def RVal.truth : RVal → Except Err Bool
  | .num _ zero => .ok (!zero)
  | .buffer _ count _ => .ok (decide (count ≠ 0))
  | .other _ b => b

/-- `value.id`: of these, only a buffer has one (gsp/object.py:71-73). -/
def RVal.idOf : RVal → Except Err Nat
  | .buffer id _ _ => .ok id
  | _ => .error .attributeError

/-- `repr(value)`, for a buffer gsp_matplotlib/core/buffer.py:45-46. -/
def RVal.repr : RVal → Text
  | .num text _ => text
  | .buffer _ count dtype => "Buffer(".toList ++ decimal count ++ ", ".toList ++ dtype ++ ")".toList
  | .other text _ => text

/-- `self.__class__.__name__`: operator.py:147-207, accessor.py:10-131, measure.py:121-233, colormap.py:8,
out.py:8. The class of an accessor with its own key is this key in upper case. -/
def TData.className {V : Type} : TData V → Text
  | .transform => "Transform".toList
  | .arith .add _ _ => "Add".toList
  | .arith .sub _ _ => "Sub".toList
  | .arith .mul _ _ => "Mul".toList
  | .arith .div _ _ => "Div".toList
  | .accessor none _ => "Accessor".toList
  | .accessor (some k) _ => k.toList.map Char.toUpper
  | .measure .pixel => "Pixel".toList
  | .measure .inch => "Inch".toList
  | .measure .point => "Point".toList
  | .measure .centimeter => "Centimeter".toList
  | .measure .millimeter => "Millimeter".toList
  | .measure .meter => "Meter".toList
  | .measure .kilometer => "Kilometer".toList
  | .colormap _ _ _ => "Colormap".toList
  | .out _ => "Out".toList

/-- The text before the parenthesis or comma that follows the ids: transform.py:199-202, operator.py:138-141. -/
def reprHead (h : THeap RVal) (ids : Nat → Nat) (n r : Nat) (t : TNode RVal) : Except Err Text :=
  match t.base with
  | some _ => match baseOf h n r with
    | .error e => .error e
    | .ok b => .ok (t.data.className ++ " (id=".toList ++ decimal (ids r) ++ "[base=".toList ++ decimal (ids b) ++
        "]".toList)
  | none => .ok (t.data.className ++ " (id=".toList ++ decimal (ids r))

/-- What a transform is applied to: transform.py:204-207. -/
def reprArg (ids : Nat → Nat) (t : TNode RVal) : Except Err Text :=
  match t.next with
  | some x => .ok ("(".toList ++ decimal (ids x) ++ ")".toList)
  | none => match t.buffer with
    | none => .ok []
    | some v => match v.truth with
      | .error e => .error e
      | .ok false => .ok []
      | .ok true => match v.idOf with
        | .error e => .error e
        | .ok i => .ok ("(".toList ++ decimal i ++ ")".toList)

/-- `repr` of an operand (operator.py:143). -/
def reprOpd (rec : Nat → Except Err Text) : Opd RVal → Except Err Text
  | .none => .ok "None".toList
  | .val v => .ok v.repr
  | .ref r => rec r

/-- `repr(transform)`: transform.py:197-208 and, for operators, operator.py:136-145. -/
def reprOf (h : THeap RVal) (ids : Nat → Nat) : Nat → Nat → Except Err Text
  | 0, _ => .error .recursion
  | n + 1, r => match h[r]? with
    | none => .error .attributeError
    | some t => match reprHead h ids n r t with
      | .error e => .error e
      | .ok s => match t.data with
        | .arith _ left right => match reprOpd (reprOf h ids n) left with
          | .error e => .error e
          | .ok a => match reprOpd (reprOf h ids n) right with
            | .error e => .error e
            | .ok b => .ok (s ++ ", ".toList ++ "(left=".toList ++ a ++ ", right=".toList ++ b ++ ")".toList)
        | _ => match reprArg ids t with
          | .error e => .error e
          | .ok a => .ok (s ++ ")".toList ++ a)

end Verif
