import Verif.Model.Py
/-
Textual form of numpy dtypes (gsp/io/convert.py:145-177). A Python `str` is a list of
characters here.
-/

namespace Verif

abbrev Text := List Char

/-- One field of a structured dtype: name, `base.str` (as "<f4") and shape. -/
structure DField where
  name : Text
  base : Text
  shape : List Nat
deriving DecidableEq, Repr

/-- A numpy dtype: a base type with a shape, or a list of named fields. Simplifications:
fields hold plain base types (a nested structure has the base string "|V.." and does not
survive), offsets, titles and alignment are not represented. -/
inductive DType where
  | plain (base : Text) (shape : List Nat)
  | struct (fields : List DField)
deriving DecidableEq, Repr

/-- `str(n)`. -/
def decimal (n : Nat) : Text := Nat.toDigits 10 n

/-- `int(s)` for the strings met here: decimal digits, anything else is `ValueError`. -/
def pyInt (s : Text) : Except Err Nat :=
  if s ≠ [] ∧ s.all Char.isDigit then .ok (Nat.ofDigitChars 10 s 0) else .error .valueError

/-- `int(np.prod(shape))`; the product of no number is 1. -/
def prodShape (shape : List Nat) : Nat := shape.foldr (· * ·) 1

/-- `f"{type}:{name}:{size}"` (lines 152, 157). -/
def elementText (name base : Text) (shape : List Nat) : Text :=
  base ++ ':' :: (name ++ ':' :: decimal (prodShape shape))

/-- `",".join(elements)`. -/
def joinText (sep : Char) : List Text → Text
  | [] => []
  | [a] => a
  | a :: b :: l => a ++ sep :: joinText sep (b :: l)

/-- `numpy_dtype_to_str` (lines 145-157). A structure without fields has no names and its
base string is "|V0". -/
def dtypeToStr : DType → Text
  | .plain base shape => elementText [] base shape
  | .struct [] => elementText [] ['|', 'V', '0'] []
  | .struct fs => joinText ',' (fs.map (fun f => elementText f.name f.base f.shape))

/-- An element of the list `dt` (lines 165-174). -/
inductive DElem where
  | named (f : DField)
  | bare (base : Text) (shape : List Nat)
deriving DecidableEq, Repr

/-- Lines 163-174 for one element. Unpacking something else than three parts is a
`ValueError`; `int(size)` is only evaluated when `size` is not empty. -/
def parseElement (e : Text) : Except Err DElem :=
  match splitChars ':' e with
  | [type, name, size] =>
    match (if size = [] then .ok [] else
        (pyInt size).map (fun n => if n > 1 then [n] else [])) with
    | .error err => .error err
    | .ok shape => .ok (if name ≠ [] then .named ⟨name, type, shape⟩ else .bare type shape)
  | _ => .error .valueError

/-- The fields of a list of named elements; an unnamed element is not a field. -/
def namedFields : List DElem → Option (List DField)
  | [] => some []
  | .named f :: l => (namedFields l).map (f :: ·)
  | .bare _ _ :: _ => none

/-- `np.dtype(dt)` (line 177), `known` telling the base strings that numpy understands:
repeated names are a `ValueError`, unknown types and unnamed elements of a list a
`TypeError`. -/
def makeDtype (known : Text → Bool) : List DElem → Except Err DType
  | [.bare base shape] => if known base then .ok (.plain base shape) else .error .typeError
  | l => match namedFields l with
    | none => .error .typeError
    | some fs =>
      if ¬ (fs.all (fun f => known f.base)) then .error .typeError
      else if ¬ (fs.map DField.name).Nodup then .error .valueError
      else .ok (.struct fs)

/-- `numpy_str_to_dtype` (lines 159-177). -/
def strToDtype (known : Text → Bool) (s : Text) : Except Err DType :=
  match (splitChars ',' s).mapM parseElement with
  | .error e => .error e
  | .ok l => makeDtype known l

end Verif
