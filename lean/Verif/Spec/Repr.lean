import Verif.Model.Repr
/-
What the text of a transform is meant to tell.
-/

namespace Verif

/-- The classes, each given by a new transform of it. -/
def knownClasses : List (TData RVal) :=
  [.transform, .arith .add .none .none, .arith .sub .none .none, .arith .mul .none .none, .arith .div .none .none,
   .accessor none none, .accessor (some "x") (some "x"), .accessor (some "y") (some "y"),
   .accessor (some "z") (some "z"), .accessor (some "w") (some "w"), .accessor (some "r") (some "r"),
   .accessor (some "g") (some "g"), .accessor (some "b") (some "b"), .accessor (some "a") (some "a"),
   .measure .pixel, .measure .inch, .measure .point, .measure .centimeter, .measure .millimeter, .measure .meter,
   .measure .kilometer, .colormap none none none, .out none]

/-- What is told of an object: a word (a number, or None), the length and type of a buffer; the class, the id, the
id of the base and the id of the argument of a transform; the class, the id, the id of the base and the operands
of an operator. -/
inductive ReprTold where
  | word (w : Text)
  | buffer (count : Nat) (dtype : Text)
  | plain (cls : TData RVal) (id : Nat) (base arg : Option Nat)
  | oper (cls : TData RVal) (id : Nat) (base : Option Nat) (left right : ReprTold)
deriving DecidableEq

/-- `b` is where the bases of `r` end. -/
inductive BaseEnds (h : THeap RVal) : Nat → Nat → Prop where
  | here {r t} : h[r]? = some t → t.base = none → BaseEnds h r r
  | there {r t c b} : h[r]? = some t → t.base = some c → BaseEnds h c b → BaseEnds h r b

/-- The id of the base is told if there is a base. -/
inductive BaseTold (h : THeap RVal) (ids : Nat → Nat) (r : Nat) (t : TNode RVal) : Option Nat → Prop where
  | none : t.base = none → BaseTold h ids r t none
  | some {b} : t.base ≠ none → BaseEnds h r b → BaseTold h ids r t (some (ids b))

/-- The id of the next transform is told, or else the id of the buffer. -/
inductive ArgTold (ids : Nat → Nat) (t : TNode RVal) : Option Nat → Prop where
  | next {x} : t.next = some x → ArgTold ids t (some (ids x))
  | none : t.next = none → t.buffer = none → ArgTold ids t none
  | buffer {i c d} : t.next = none → t.buffer = some (.buffer i (c + 1) d) → ArgTold ids t (some i)
  | empty {i d} : t.next = none → t.buffer = some (.buffer i 0 d) → ArgTold ids t none
  | zero {w} : t.next = none → t.buffer = some (.num w true) → ArgTold ids t none
  | false {w} : t.next = none → t.buffer = some (.other w (.ok false)) → ArgTold ids t none

/-- What is to be told of operand `o`, and of transform `r`. -/
inductive ReprTellsOpd (tells : Nat → ReprTold → Prop) : Opd RVal → ReprTold → Prop where
  | none : ReprTellsOpd tells .none (.word "None".toList)
  | num {w z} : ReprTellsOpd tells (.val (.num w z)) (.word w)
  | buffer {i c d} : ReprTellsOpd tells (.val (.buffer i c d)) (.buffer c d)
  | other {w z} : ReprTellsOpd tells (.val (.other w z)) (.word w)
  | ref {r s} : tells r s → ReprTellsOpd tells (.ref r) s

/-- What is to be told of transform `r`, its operands being at most `n` levels deep. -/
def ReprTells (h : THeap RVal) (ids : Nat → Nat) : Nat → Nat → ReprTold → Prop
  | 0, _, _ => False
  | n + 1, r, s => ∃ t b, h[r]? = some t ∧ BaseTold h ids r t b ∧
      match t.data with
      | .arith _ left right => ∃ x y, ReprTellsOpd (ReprTells h ids n) left x ∧ ReprTellsOpd (ReprTells h ids n) right y ∧
          s = .oper t.data.fresh (ids r) b x y
      | d => ∃ a, ArgTold ids t a ∧ s = .plain d.fresh (ids r) b a

/-- The characters that separate words. -/
def sepChars : List Char := [' ', ',', '(', ')', '[', ']']

/-- A word, such as 1.5 or float32, has no separator. -/
def OneWord (w : Text) : Prop := ∀ c ∈ w, c ∉ sepChars

/-- Transforms have the classes that exist, and operands are transforms, numbers, None, and buffers whose type has a
simple name. -/
def Ordinary (h : THeap RVal) : Prop :=
  ∀ (r : Nat) t, h[r]? = some t → t.data.fresh ∈ knownClasses ∧ match t.data with
    | .arith _ left right => ∀ o ∈ [left, right], match o with
      | .val (.num w _) => OneWord w
      | .val (.buffer _ _ d) => OneWord d
      | .val (.other _ _) => False
      | _ => True
    | _ => True

/-- The number of operators told of. -/
def ReprTold.operators : ReprTold → Nat
  | .oper _ _ _ l r => 1 + l.operators + r.operators
  | _ => 0

end Verif
